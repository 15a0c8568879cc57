{"id": "C01", "title": "Reading a source consumes it exactly, byte for byte", "statement": "After any sequence of Read, AdvanceIf, SkipSpace, Peek, Ahead2nd, PushState, PopState and DiscardState calls on a Source, the unread remainder is exactly the source text from byte Ofst() on, Ofst() never exceeds Len(), every saved state is in the same relation to the text, Pos() is the number of code points (Go's UTF-8 decoding, one per ill-formed byte) before Ofst(), and AheadIsEOF() is true exactly when nothing is left.", "quantifier": "every byte string (also ill-formed UTF-8) and every finite sequence of calls", "why_tests_cant": "tests fix a handful of sources and call sequences; every range in the AST rests on the offset being right after every possible history of reads, pushes and pops", "anchors": ["span/source.go: Runes.advance, Source.advance, Source.Read, Source.SkipSpace, Source.PushState, Source.PopState, Source.DiscardState, Source.AheadIsEOF, Source.Ofst, Source.Pos"]}
{"id": "C02", "title": "Looking ahead never moves the reader, and rewinding restores it", "statement": "Peek, Ahead2nd, AheadIsCh, AheadIsChOr, AheadIsChs2 and AheadIsEOF leave the reader unchanged and predict the next characters: Peek is the first code point left, Ahead2nd the second. PushState followed by any balanced sequence of calls and then PopState gives back exactly the state before PushState.", "quantifier": "every source text, every reachable reader state, every balanced call sequence", "why_tests_cant": "speculative parsing (arrow functions, TS type arguments) rewinds from arbitrary depths of lookahead; tests exercise a few", "anchors": ["span/source.go: Source.Peek, Source.Ahead2nd, Source.AheadIsCh, Source.AheadIsChOr, Source.AheadIsChs2, Source.PushState, Source.PopState"]}
{"id": "C03", "title": "Offsets convert to the right line and column", "statement": "OfstLineCol(o) gives line = 1 + the number of line feeds (\\r\\n counted once, \\r and \\n alone once) that end at or before byte o, and column = the number of code points between the end of the last such line feed and o; LineCol(lo,hi) gives the same answer as two OfstLineCol calls whenever lo <= hi <= Len().", "quantifier": "every source text and every pair of offsets within it", "why_tests_cant": "line feeds can be mixed, adjacent, split by the offset, or absent; no finite table of sources covers that", "anchors": ["span/source.go: Source.LineCol, Source.OfstLineCol, linefeed"]}
{"id": "C04", "title": "Skipping white space stops at the first other character and remembers line feeds", "statement": "SkipSpace consumes exactly the longest prefix of the remaining text made of white-space code points, and MetLineTerm() afterwards is true exactly when that prefix contains a JavaScript line terminator (LF, CR, U+2028, U+2029).", "quantifier": "every source text and every reader state", "why_tests_cant": "automatic semicolon insertion depends on this flag for every possible mix of white space", "anchors": ["span/source.go: Source.SkipSpace, Source.MetLineTerm, IsLineTerminator"]}
{"id": "C05", "title": "The lookahead buffer is a faithful FIFO", "statement": "Tokens come out of the lexer's lookahead buffer in the order they were put in, each exactly once and unchanged, as long as no more than its five slots are in use; reading an empty buffer never yields a token and writing a full one is refused; preparing the slot of the next token never changes a buffered token while the buffer is not full.", "quantifier": "every sequence of token reads and lookaheads of any length (the ring wraps arbitrarily often)", "why_tests_cant": "the ring's read and write cursors wrap around, so correctness is an invariant over unbounded histories", "anchors": ["ecma/parser/lexer.go: TokensBuf.write, TokensBuf.read, TokensBuf.newToken, TokensBuf.readable, TokensBuf.cur"]}
{"id": "C06", "title": "Rewinding the lexer restores what it was doing", "statement": "After lexer PushState, any balanced lexing activity and PopState, the lexer continues exactly as it would have from the point of PushState: same position, same buffered tokens, same mode stack including the flags of every mode on it.", "quantifier": "every lexer state and every balanced sequence of mode changes in between", "why_tests_cant": "the saved state shares memory with the live one, so whether it is restored depends on which later operation is performed", "anchors": ["ecma/parser/lexer.go: Lexer.PushState, Lexer.PopState, Lexer.PushMode, Lexer.PopMode, Lexer.AddMode, Lexer.EraseMode, Lexer.CurMode"]}
{"id": "C07", "title": "Mode push and pop are balanced and inherit only strictness, async and TypeScript", "statement": "PushMode followed by PopMode restores the mode stack, the bottom mode can never be popped, and a mode pushed with inheritance carries exactly the strict/async/TypeScript flags of the enclosing mode in addition to its own.", "quantifier": "every mode stack, every flag set, every sequence of pushes and pops", "why_tests_cant": "mode stacks grow with the nesting of the parsed program, which is unbounded", "anchors": ["ecma/parser/lexer.go: Lexer.PushMode, Lexer.PopMode, Lexer.CurMode, Lexer.IsMode, Lexer.AddMode, Lexer.EraseMode"]}
{"id": "C08", "title": "Escape sequences decode to the code point the language defines", "statement": "In a string or template, \\b \\f \\n \\r \\t \\v decode to their control characters, a line continuation to nothing, \\xHH and \\uHHHH and \\u{H...} to the code point written in hexadecimal provided it is at most U+10FFFF (otherwise an error), legacy octal escapes to the value of at most three octal digits not exceeding 0377, and any other escaped character to itself; exactly the characters of the escape are consumed.", "quantifier": "every character sequence following a backslash", "why_tests_cant": "the escape grammar is unbounded (\\u{000...0041}) and its failure cases are combinatorial", "anchors": ["ecma/parser/lexer.go: Lexer.readEscapeSeq, Lexer.readOctalEscapeSeq, Lexer.readUnicodeEscapeSeq, Lexer.readCodepoint, Lexer.readHex4Digits, Lexer.readCodeUnit"]}
{"id": "C09", "title": "A string literal ends at its matching unescaped quote and its value is the decoded content", "statement": "Reading a string literal consumes up to and including the first matching quote that is not part of an escape sequence, reports an error if the line or the source ends first, and otherwise the token's value is the concatenation of the decoded characters; encoding any text with the standard escapes and reading it back gives that text.", "quantifier": "every sequence of characters after the opening quote, either quote character", "why_tests_cant": "quotes, backslashes and line ends may be interleaved arbitrarily", "anchors": ["ecma/parser/lexer.go: Lexer.readStr, Lexer.readEscapeSeq"]}
{"id": "C10", "title": "Reading a template always terminates", "statement": "For every source, reading the characters of a template literal stops after consuming finitely many characters, either at the closing backquote, at ${, or at the end of the source.", "quantifier": "every source text, in particular ill-formed UTF-8", "why_tests_cant": "a loop that does not advance on one class of characters is only seen on inputs containing it", "anchors": ["ecma/parser/lexer.go: Lexer.readTplChs, Lexer.ReadTpl"]}
{"id": "C11", "title": "Numeric literals are accepted exactly when the grammar allows them", "statement": "A decimal, hexadecimal, octal or binary literal with numeric separators is accepted exactly when it matches the ECMAScript grammar: at least one digit of the radix, separators only between two digits, and no identifier or digit directly after the literal.", "quantifier": "every sequence of characters starting with a digit", "why_tests_cant": "separators and radix prefixes can be placed anywhere in literals of any length", "anchors": ["ecma/parser/lexer.go: Lexer.ReadNum, Lexer.readDecimalNum, Lexer.readHexNum, Lexer.readBinaryNum, Lexer.readOctalNum, Lexer.readDigits"]}
{"id": "C12", "title": "Punctuators are read by maximal munch", "statement": "When the source continues with a punctuator, the lexer returns the longest punctuator of the enabled language that is a prefix of the remaining text, with the ?. followed-by-digit exception, and consumes exactly its characters.", "quantifier": "every remaining source text and every feature setting", "why_tests_cant": "the punctuator table has prefixes of prefixes and feature gates; the text after it is arbitrary", "anchors": ["ecma/parser/lexer.go: Lexer.readSymbol", "ecma/parser/token.go: TokenValue, TokenKinds"]}
{"id": "C13", "title": "Identifiers are scanned completely and classified by the reserved-word tables", "statement": "Reading a name consumes the longest run of identifier characters; the token is a keyword exactly when the name, written without escapes, is in the reserved-word table of the current strictness.", "quantifier": "every source text starting with an identifier character", "why_tests_cant": "names are of unbounded length and share prefixes with keywords", "anchors": ["ecma/parser/lexer.go: Lexer.readName, IsIdStart, IsIdPart", "ecma/parser/token.go: Keywords, CtxKeywords, StrictKeywords, IsKeyword"]}
{"id": "C14", "title": "A regular-expression literal ends at the first slash outside a class and not escaped", "statement": "Reading a regular expression stops at the first / that is neither escaped nor inside a character class, fails on a line terminator or the end of the source before it, and its flags are the maximal run of identifier characters after it, each a known flag used at most once.", "quantifier": "every sequence of characters after the opening slash", "why_tests_cant": "escapes and classes nest and interleave arbitrarily", "anchors": ["ecma/parser/lexer.go: Lexer.readRegexp, Lexer.readRegexpFlags"]}
{"id": "C15", "title": "Comments end where the language says and line feeds inside them count", "statement": "A // comment extends to but excludes the next line terminator or the end of the source; a /* comment extends through the first */ and is an error without one; whether a line terminator was seen is remembered for automatic semicolon insertion.", "quantifier": "every sequence of characters after the comment opener", "why_tests_cant": "comment bodies are arbitrary", "anchors": ["ecma/parser/lexer.go: Lexer.readSinglelineComment, Lexer.readMultilineComment, Lexer.skipSpace, Lexer.nextTok"]}
{"id": "C16", "title": "HTML entities in JSX text decode independently", "statement": "In JSX text every &name; &#n; and &#xh; reference is replaced by its own character, independently of the references before it, and an ampersand that starts no reference stands for itself.", "quantifier": "every JSX text", "why_tests_cant": "the decoder keeps a buffer across references, so an error shows only for particular sequences of references", "anchors": ["ecma/parser/lexer.go: Lexer.readJSXTxt", "ecma/parser/html_entity.go: HTMLEntities"]}
{"id": "C17", "title": "Binary operators group by precedence and associativity", "statement": "A chain of operands and binary operators is parsed into the tree ECMAScript's grammar defines: a tighter operator binds first, equal precedence groups to the left, ** groups to the right.", "quantifier": "every chain of operands and operators of any length", "why_tests_cant": "there are unboundedly many operator chains; which of them is grouped wrongly depends on the relative precedence of three operators in a row", "anchors": ["ecma/parser/parser.go: Parser.binExpr", "ecma/parser/token.go: TokenKinds"]}
{"id": "C18", "title": "Parsing a binary chain loses, duplicates and reorders nothing", "statement": "Reading the leaves and operators of the tree returned for a binary chain from left to right gives back the tokens consumed, in order, and the parser stops exactly at the first token that is not an enabled binary operator.", "quantifier": "every chain of operands and operators of any length, every minimum precedence", "why_tests_cant": "holds by induction over the chain, not for a sample of chains", "anchors": ["ecma/parser/parser.go: Parser.binExpr"]}
{"id": "C19", "title": "?? never mixes with && or || without parentheses", "statement": "A binary chain is rejected exactly when it contains ?? together with && or || at the same parenthesis level, or a unary operand directly left of **.", "quantifier": "every chain of operands and operators of any length", "why_tests_cant": "the offending operators may be arbitrarily far apart with arbitrary operators between", "anchors": ["ecma/parser/parser.go: Parser.binExpr"]}
{"id": "C20", "title": "Statements end by semicolon, closing brace, end of file or line break only", "statement": "A statement terminator is accepted exactly when the next token is ;, or it is }, or the end of the source, or a line terminator precedes it; the ; is consumed and nothing else is.", "quantifier": "every next token and every line-break flag", "why_tests_cant": "the rule ranges over all token kinds and contexts", "anchors": ["ecma/parser/parser.go: Parser.advanceIfSemi, Parser.isExprOpening"]}
{"id": "C21", "title": "Redeclarations are reported exactly when the language forbids them", "statement": "Declaring a name in a scope that already holds one reports an error exactly when one of the two is lexically declared and neither exception applies (function redeclared by function in sloppy mode, var over var, var over parameter, TypeScript merging).", "quantifier": "every pair of binding kinds and scope kinds and every sequence of declarations", "why_tests_cant": "the decision is over combinations of binding and scope flags, applied to unbounded declaration sequences", "anchors": ["ecma/parser/symtab.go: Scope.AddLocal, Scope.CheckRefDup, Ref", "ecma/parser/parser.go: Parser.addLocalBinding"]}
{"id": "C22", "title": "A name resolves to its innermost declaration", "statement": "BindingOf(name) is the declaration in the nearest enclosing scope that has one, and nil exactly when no enclosing scope has one.", "quantifier": "every scope tree and every name", "why_tests_cant": "scope nesting is unbounded and declarations shadow", "anchors": ["ecma/parser/symtab.go: Scope.BindingOf, Scope.HasName, Scope.OwnRef"]}
{"id": "C23", "title": "Scopes are entered and left in balance with unique identities", "statement": "Every balanced sequence of scope entries and exits ends in the scope it started in; every scope gets an identity never used before; entering a block inherits exactly the strictness, async, generator, class and loop/switch context the language propagates, and entering a function cuts the loop and switch context.", "quantifier": "every balanced sequence of entries and exits of any depth", "why_tests_cant": "context flags accumulate along unbounded nesting", "anchors": ["ecma/parser/symtab.go: SymTab.EnterScope, SymTab.LeaveScope, NewScope, Scope.IsKind, Scope.AddKind"]}
{"id": "C24", "title": "break and continue are accepted exactly where they have a target", "statement": "A break without label is accepted exactly inside a loop or switch of the same function, continue without label exactly inside a loop of the same function, and a labelled one exactly when an enclosing statement of the same function carries the label (for continue: a loop).", "quantifier": "every nesting of functions, loops, switches, tries, blocks and labels", "why_tests_cant": "nesting is unbounded; the flag inheritance rules compose", "anchors": ["ecma/parser/parser.go: Parser.brkStmt, Parser.contStmt, Parser.labelStmt", "ecma/parser/symtab.go: SymTab.EnterScope, Scope.GetLabel, Scope.UpperScope"]}
{"id": "C25", "title": "Duplicate parameter names are found", "statement": "When duplicates are forbidden (strict mode, arrow function, method, non-simple parameters), a parameter list is rejected exactly when two bound names in it are equal.", "quantifier": "every list of parameter patterns of any length and depth", "why_tests_cant": "the duplicate may be anywhere in nested patterns", "anchors": ["ecma/parser/parser.go: Parser.checkParams, Parser.collectNames, Parser.namesInPattern"]}
{"id": "C26", "title": "A module exports a name at most once and only names it declares", "statement": "checkExp rejects a module exactly when two exports carry the same name or an exported local name is not declared at the top level.", "quantifier": "every list of export declarations and every set of top-level names", "why_tests_cant": "exports accumulate over the whole program", "anchors": ["ecma/parser/parser.go: Parser.checkExp, Parser.addExp"]}
{"id": "C27", "title": "A switch has at most one default clause", "statement": "A switch statement with two or more default clauses is rejected, wherever they stand among the case clauses; one with at most one is not rejected for that reason.", "quantifier": "every sequence of case and default clauses", "why_tests_cant": "the two defaults may be separated by any number of cases", "anchors": ["ecma/parser/parser.go: Parser.switchStmt, Parser.switchCase"]}
{"id": "C28", "title": "Imported names are declared once", "statement": "Two import specifiers binding the same local name in one module are rejected.", "quantifier": "every sequence of import declarations", "why_tests_cant": "the clash may be between specifiers arbitrarily far apart", "anchors": ["ecma/parser/parser.go: Parser.importDec, Parser.addLocalBinding"]}
{"id": "C29", "title": "Assignment and conditional expressions group to the right", "statement": "a = b = c parses as a = (b = c) and a ? b : c ? d : e as a ? b : (c ? d : e), for chains of any length, and an assignment is accepted exactly when its left side is a valid assignment target.", "quantifier": "every chain of assignment and conditional operators", "why_tests_cant": "chains are unbounded", "anchors": ["ecma/parser/parser.go: Parser.assignExpr, Parser.condExpr, Parser.isSimpleLVal, Parser.isLVal"]}
{"id": "C30", "title": "Arrow parameters are converted without loss", "statement": "Reinterpreting a parenthesised expression as arrow parameters yields a pattern that binds exactly the identifiers standing in binding position of the expression, keeps defaults and rest elements in place, and fails exactly on expressions that are no pattern.", "quantifier": "every expression tree", "why_tests_cant": "patterns nest arbitrarily", "anchors": ["ecma/parser/parser.go: Parser.argToParam, Parser.argsToParams"]}
{"id": "C31", "title": "Parser features are independent switches", "statement": "Turning a feature on or off changes the answer for exactly that feature; setup enables import/export declarations for modules and never leaves global async on without async functions.", "quantifier": "every feature set and every feature", "why_tests_cant": "2^64 settings", "anchors": ["ecma/parser/feature.go: Feature.On, Feature.Off, Feature.Turn", "ecma/parser/parser.go: ParserOpts.Setup, NewParserOpts"]}
{"id": "C32", "title": "The constant evaluator computes what JavaScript computes", "statement": "Executing an expression made of literals, names bound in the given variables, arithmetic, comparison, logical and conditional operators gives the value JavaScript gives it.", "quantifier": "every expression tree and every variable environment", "why_tests_cant": "expressions nest arbitrarily; a wrong operator shows only on particular operands", "anchors": ["ecma/exec/vm.go: ExprEvaluator, NewExprEvaluator, Exec, ToBool, ToNum, ToStr, GetProp"]}
{"id": "C33", "title": "The evaluator's stack discipline is sound", "statement": "Evaluating an expression leaves exactly one value more on the evaluator's stack than before, independently of what was there, so a subexpression's value never leaks into or is taken from a sibling.", "quantifier": "every expression tree", "why_tests_cant": "stack height is an invariant over unbounded trees", "anchors": ["ecma/exec/vm.go: push, pop, ExprEvaluator.init"]}
{"id": "C34", "title": "Branch selection picks the branches whose conditions hold", "statement": "SelectTrueBranches returns exactly the bodies of the branches a conditional chain would execute under the given variables, in source order.", "quantifier": "every branch list and every environment", "why_tests_cant": "branch lists are of unbounded length", "anchors": ["ecma/astutil/astutil.go: NodeToSwitchBranches, SelectTrueBranches, CollectNodesInTrueBranches"]}
{"id": "C35", "title": "Function dependency queries answer reachability", "statement": "IsFnDepsOnNode answers true exactly when the target is reachable from the function through the recorded call graph, and terminates also on cyclic graphs.", "quantifier": "every finite dependency graph, cyclic or not", "why_tests_cant": "graphs are arbitrary", "anchors": ["ecma/astutil/astutil.go: IsFnDepsOnNode, BuildFnDepGraph"]}
{"id": "C36", "title": "The LRU cache stays within its capacity", "statement": "After any sequence of Set and Get calls a cache of capacity n holds at most n entries, an evicted key is no longer reported by HasKey, and the evicted keys are those least recently set.", "quantifier": "every capacity, clear count and call sequence", "why_tests_cant": "eviction happens only after the capacity is filled, and misbehaves only for particular re-insertion histories", "anchors": ["util/lru.go: NewLruCache, LruCache.Set, LruCache.Get, LruCache.HasKey", "util/map.go: OrderedMap.Set"]}
{"id": "C37", "title": "Get returns the last value set", "statement": "For the LRU cache and the ordered map, Get(k) returns the value of the most recent Set(k, v) that was not followed by a removal of k, and other keys are unaffected.", "quantifier": "every call sequence", "why_tests_cant": "histories are unbounded", "anchors": ["util/map.go: OrderedMap.Set, OrderedMap.Get, OrderedMap.Remove", "util/lru.go: LruCache.Set, LruCache.Get"]}
{"id": "C38", "title": "The ordered map keeps one entry per key in order of last insertion", "statement": "After any sequence of Set and Remove on an ordered map, its list holds each present key exactly once, ordered by the time of its latest Set, with its current value, and Front is the least recently set.", "quantifier": "every call sequence", "why_tests_cant": "histories are unbounded", "anchors": ["util/map.go: OrderedMap.Set, OrderedMap.Remove, OrderedMap.Front, OrderedMap.HasKey"]}
{"id": "C39", "title": "Comment removal leaves JSON without comments unchanged and strings alone", "statement": "RemoveJsonComments copies every byte outside comments and trailing commas unchanged, never alters the inside of a string literal, and leaves no comment outside strings.", "quantifier": "every JSON text with comments", "why_tests_cant": "strings, escapes and comment openers interleave arbitrarily", "anchors": ["util/str.go: RemoveJsonComments"]}
{"id": "C40", "title": "Comment removal keeps offsets and lines", "statement": "RemoveJsonComments replaces comments by equally long white space, so the output is as long as the input, has its line breaks at the same offsets, and is a fixed point of RemoveJsonComments.", "quantifier": "every JSON text with comments", "why_tests_cant": "depends on the kind of line break and characters inside comments", "anchors": ["util/str.go: RemoveJsonComments"]}
{"id": "C41", "title": "Map merging is a right-biased deep union", "statement": "After MergeMap(dst, src), looking up any key path gives src's value where src has a non-nil one that is not merged deeper, and dst's previous value otherwise; merging several maps equals merging them one after the other.", "quantifier": "every pair of nested maps", "why_tests_cant": "maps nest arbitrarily and share keys", "anchors": ["util/merge.go: MergeMap, MergeMaps"]}
{"id": "C42", "title": "Path lookup and flattening agree", "statement": "FlattenMap(m) has for every scalar leaf of m an entry under its dot-joined path with the leaf's value and no other entries, and GetByPath(m, path) returns that value.", "quantifier": "every nested map", "why_tests_cant": "maps nest arbitrarily; keys may contain dots", "anchors": ["util/obj.go: WalkObj, FlattenMap, GetByPath"]}
{"id": "C43", "title": "Slice helpers do what they say", "statement": "RemoveAt(i) keeps all elements but the i-th (as a multiset), Swap exchanges two positions and nothing else, Includes is membership, Copy is equal and independent; map helpers: Merge only adds missing keys, CloneMap is equal, TakeOne removes exactly what it returns.", "quantifier": "every slice, map and index", "why_tests_cant": "sizes are unbounded", "anchors": ["util/slice.go: Swap, RemoveAt, Includes, Copy", "util/sets.go: Merge, CloneMap, TakeOne"]}
{"id": "C44", "title": "A directory walk visits every file once", "statement": "Absent errors and Stop, DirWalker.Walk calls the handler exactly once for the root and every entry below it, whatever the interleaving of its workers, never takes a job from an empty queue, and Walk returns only when all directories have been handled.", "quantifier": "every directory tree, every number of workers, every interleaving", "why_tests_cant": "the interleaving of workers is chosen by the scheduler", "anchors": ["util/walkdir.go: DirWalker.Walk, DirWalker.walk, DirWalker.push, DirWalker.shift, DirWalker.Stop"]}
{"id": "C45", "title": "A directory walk always finishes", "statement": "DirWalker.Walk returns for every finite tree, also when reading a directory fails or the handler calls Stop.", "quantifier": "every tree, worker count, error pattern and interleaving", "why_tests_cant": "a deadlock needs a particular schedule or configuration", "anchors": ["util/walkdir.go: DirWalker.Walk, DirWalker.walk, DirWalker.Stop"]}
{"id": "C46", "title": "Concurrent parses of one file share the work and all get the result", "statement": "ParseCache.Parse(f) returns f's parse result to every caller, parses f at most once while it is cached, and never panics or blocks forever.", "quantifier": "every number of callers and every interleaving", "why_tests_cant": "races need a particular schedule", "anchors": ["parseutil/cache.go: ParseCache.Parse, NewParseCache"]}
{"id": "C47", "title": "The walker visits every node once, parents around children", "statement": "Walking a tree calls the before-listeners of every node once before and the after-listeners once after those of its children, left to right, restores the visitor context afterwards, and visits nothing else.", "quantifier": "every tree", "why_tests_cant": "trees are unbounded", "anchors": ["ecma/walk/ctx.go: VisitNode, VisitNodes, CallListener, WalkCtx.PushVisitorCtx, WalkCtx.PopVisitorCtx", "ecma/walk/visitor.go"]}
{"id": "C48", "title": "Stopping the walk stops it", "statement": "Once a listener stops the walk, no further node is visited and no further listener is called, and the context is unwound.", "quantifier": "every tree and every point of stopping", "why_tests_cant": "the stop can happen anywhere", "anchors": ["ecma/walk/ctx.go: WalkCtx.Stop, VisitorCtx.Stop, CallListener, VisitNodes"]}
{"id": "C49", "title": "Scope numbers during a walk match the parser's", "statement": "When a listener runs on a node, ScopeId() is the number the parser gave to the scope the node is in: the walker numbers scopes in the order the nodes opening them are visited and returns to the enclosing number afterwards.", "quantifier": "every tree", "why_tests_cant": "numbers depend on the whole traversal so far", "anchors": ["ecma/walk/ctx.go: WalkCtx.PushScope, WalkCtx.PopScope, WalkCtx.ScopeId", "ecma/parser/symtab.go: SymTab.EnterScope"]}
{"id": "C50", "title": "Graph iteration visits each reachable block once", "statement": "IterBlock calls its callback exactly once for every block reachable from the start block along outgoing edges, whatever the map iteration order, and terminates on cyclic graphs.", "quantifier": "every finite graph and every iteration order", "why_tests_cant": "graphs contain cycles (loops) and Go's map order is random", "anchors": ["ecma/analysis/graph.go: IterBlock, Graph.NodesEdges"]}
{"id": "C51", "title": "Control flow edges are recorded at both ends", "statement": "In the control flow graph of a program, an edge that leaves block a for block b is matched by an edge recorded as coming into b from a, and the other way round.", "quantifier": "every program and every order in which Go visits its maps", "why_tests_cant": "the graph is built by unbounded sequences of destructive updates of shared maps, which Go visits in random order", "anchors": ["ecma/analysis/graph.go: link, linkEdges, Block.join, Block.newOut, Block.newIn"]}
{"id": "C52", "title": "Number literals evaluate to their mathematical value", "statement": "NodeToFloat / ParseFloat of a valid integer literal in any radix, with or without separators, yields the number the literal denotes.", "quantifier": "every valid literal", "why_tests_cant": "literals are of unbounded length; failures start at particular magnitudes and prefixes", "anchors": ["ecma/parser/astutil.go: ParseFloat, NodeToFloat, ParseBigint"]}
{"id": "C53", "title": "Range helpers pick the true extremes", "statement": "FirstLoc returns the range that starts first among the non-empty ones and LastLoc the one that ends last, independently of the order of the arguments.", "quantifier": "every list of ranges", "why_tests_cant": "lists are arbitrary", "anchors": ["ecma/estree/convert.go: FirstLoc, LastLoc"]}
{"id": "C54", "title": "Template literals convert to alternating quasis and expressions", "statement": "Converting a template literal to ESTree yields exactly one more quasi than expressions, the last and only the last quasi being marked as tail, and the quasis and expressions in source order.", "quantifier": "every template literal", "why_tests_cant": "templates have unboundedly many parts", "anchors": ["ecma/estree/convert.go: tplLiteral", "ecma/parser/parser.go: Parser.tplExpr"]}
{"id": "C55", "title": "Reading a parenthesised expression never panics", "statement": "Parsing any source that contains a parenthesised expression yields a tree or a syntax error, never a run-time panic, whether or not an arrow follows the closing parenthesis.", "quantifier": "every expression in parentheses", "why_tests_cant": "expressions nest without bound; the trial conversion to parameters visits default values no test thinks of", "anchors": ["ecma/parser/parser.go: Parser.parenExpr, Parser.argsToParams, Parser.checkDefaultVal"]}
{"id": "C56", "title": "A parenthesised expression keeps its tree", "statement": "A parenthesised expression that is not followed by => is returned as it was parsed: that the parser first tried to read it as arrow parameters leaves no trace in the tree and does not change what is accepted.", "quantifier": "every expression in parentheses", "why_tests_cant": "expressions nest without bound and the trial updates nodes in place", "anchors": ["ecma/parser/parser.go: Parser.parenExpr, Parser.argToParam, Parser.checkArg"]}
{"id": "C57", "title": "Declaring names never panics", "statement": "Whatever scopes are opened and closed and whatever names are declared in them, in any order and with any mixture of declaration kinds, the symbol table ends in a table or a reported error, never in a run-time panic.", "quantifier": "every history of scope entries, exits and declarations", "why_tests_cant": "a panic needs a particular order of declarations over several scopes", "anchors": ["ecma/parser/symtab.go: Scope.AddLocal, Scope.CheckRefDup, SymTab.EnterScope, SymTab.LeaveScope", "ecma/parser/parser.go: Parser.addLocalBinding"]}
{"id": "C58", "title": "return is accepted exactly inside functions", "statement": "A return statement is accepted exactly when it is inside a function body; at the top level and in the static block of a class it is rejected.", "quantifier": "every program, however blocks, classes and functions nest", "why_tests_cant": "nesting is unbounded", "anchors": ["ecma/parser/parser.go: Parser.retStmt", "ecma/parser/symtab.go: SymTab.EnterScope"]}
{"id": "C59", "title": "A listener is called for the node types it was added for", "statement": "A listener added for entering or leaving a node type is called for nodes of that type and for no other, and one added for all atoms is called for every node without children.", "quantifier": "every node type and every tree", "why_tests_cant": "the dispatch tables have hundreds of hand-written entries, each of which may be wrong for one type", "anchors": ["ecma/walk/visitor.go: NodeBeforeEvent, NodeAfterEvent, AddBeforeListener, AddAfterListener, AddAtomListener, DefaultVisitors"]}
{"id": "C60", "title": "Evaluating an expression never panics", "statement": "Evaluating any expression of a condition, with any values bound to its names, ends in a value; no index, key, operator or operand makes the evaluator panic.", "quantifier": "every expression tree and every environment", "why_tests_cant": "trees nest without bound and a panic depends on the values computed on the way", "anchors": ["ecma/exec/vm.go: NewExprEvaluator, GetElem, GetProp"]}
{"id": "C61", "title": "The function dependency graph records captured names for the right function", "statement": "For every program, the dependency graph lists for each function exactly the names of enclosing functions that occur in its own code, and building it never panics.", "quantifier": "every program, however functions and declarations nest", "why_tests_cant": "the builder keeps a current function in its traversal state; whether it is right depends on what was traversed before", "anchors": ["ecma/astutil/astutil.go: BuildFnDepGraph", "ecma/astutil/astutil.go: IsFnDepsOnNode"]}
{"id": "C62", "title": "Searching a tree for a node is exact", "statement": "Asking whether a syntax tree contains a node answers yes exactly when the node is the tree's root or one of its descendants, and always answers.", "quantifier": "every tree and every node", "why_tests_cant": "trees nest without bound and the search runs on a walker with one entry per node type, each of which may miss a child", "anchors": ["ecma/astutil/astutil.go: IsNodeContains", "ecma/walk/visitor.go: AddBeforeListener, DefaultVisitors"]}
{"id": "C63", "title": "A directory walk reports a directory before its files and these in order", "statement": "Absent errors and Stop, DirWalker.Walk calls the handler for each directory before it calls it for any file directly in that directory, and for these files in the order in which the directory lists them.", "quantifier": "every directory tree, every number of workers, every interleaving", "why_tests_cant": "the interleaving of workers is chosen by the scheduler", "anchors": ["util/walkdir.go: DirWalker.Walk, DirWalker.walk"]}
{"id": "C64", "title": "Every run of a program is a path of its control flow graph", "statement": "Analysing a program does not crash, and whatever the program's tests evaluate to, what a run of the program evaluates, in order, is what some path from the head of its control flow graph passes; a run to the end is a path to the block that marks the end. So all code that can run is reachable in the graph, and none of it is marked as dead.", "quantifier": "every program, every run of it (finished or not), and every order in which Go visits its maps", "why_tests_cant": "programs nest without bound, loops have infinitely many runs, and the graph is built by destructive updates in an order that differs from one execution to the next", "anchors": ["ecma/analysis/ctrlflow.go: Analysis.Analyze, AnalysisCtx", "ecma/analysis/graph.go: link, linkEdges, Block.join, grpBlock, Block.newJmpOut, Block.newJmpIn"]}
{"id": "C65", "title": "Member, call and new expressions are grouped as the language defines", "statement": "Parsing an expression built from a primary expression by new, member access, calls, templates and optional chaining always ends, reads the longest such expression, and yields the tree ECMA-262 13.3 gives it: postfixes apply left to right, each new takes the first arguments not taken by a new inside it, only accesses and calls written with ?. are marked optional, one chain node closes an optional chain, and what the grammar does not derive is rejected.", "quantifier": "every sequence of tokens", "why_tests_cant": "such expressions are arbitrarily long and nest, and three mutually recursive functions share their parse, each handing over to another in the middle", "anchors": ["ecma/parser/parser.go: lhs, newExpr, callExpr, memberExpr, memberExprObj, tplExpr, unaryExpr (delete)"]}
{"id": "C66", "title": "Declarations of one name in TypeScript clash or merge as the language says", "statement": "Several declarations of one name in one scope are accepted exactly if the language lets each two of them stand together: they have neither a value nor a type in common, or they merge (interfaces, class and interface, enums, namespaces with namespaces, classes, functions or enums, overloads). The order in which they are written does not matter.", "quantifier": "every sequence of declarations of a name, every scope and what it holds", "why_tests_cant": "the answer is computed from flags that nine forms of declaration combine differently, compared two at a time in an order that depends on the source", "anchors": ["ecma/parser/symtab.go: Scope.AddLocal, CheckRefDup, IsCallableClass, IsClsAndIft, IsBothEnum, IsOneOfNs", "ecma/parser/ts.go: tsTypDec, tsItf, tsEnum, tsNS", "ecma/parser/parser.go: fnDec, classDec, importDec"]}
{"id": "C67", "title": "Uses of private names mean the innermost class that declares them", "statement": "A program is accepted, as far as private names are concerned, exactly if each use #x lies in the body of a class that declares #x, at any place in that body and before or after the use; the use is then linked to the innermost such class. The extends clause of a class and what is outside of its braces do not see its names.", "quantifier": "every program, every nesting of classes, functions and uses", "why_tests_cant": "classes nest without bound, a use may come before its declaration, so that the check is put off to the end of the program and each postponed use must reach the right class", "anchors": ["ecma/parser/parser.go: Parser.Prog, classBody, memberExprPropDot, resolvingDanglingPvtRefs", "ecma/parser/symtab.go: Scope.UpperCls, Scope.BindingOf"]}
{"id": "C68", "title": "Class bodies are checked for the early errors of the language", "statement": "A class body is accepted, as far as the names of its elements are concerned, exactly if it has at most one constructor, this is no accessor, generator or async method, no field is called constructor, no static element prototype, and no private name is declared twice but as a getter and a setter that are both static or both not. The elements of object literals have no such limits. get and set begin an accessor exactly if they are written without quotes or escapes and a key follows.", "quantifier": "every class body", "why_tests_cant": "class bodies are arbitrarily long and the checks combine six kinds of keys, seven kinds of elements and everything declared before", "anchors": ["ecma/parser/parser.go: classBody, classElem, isName, field, isField, method"]}
{"id": "C69", "title": "The tokens tile the source", "statement": "For every source, the tokens the lexer hands out one after the other, with the white space and comments between them, are the source: nothing is skipped, read twice or invented. Each token is the longest one that can start at its place, under the question asked there (in a template, strict, async, regular expression possible), and counts as on a new line exactly by the rule of C15. Every call consumes text, except at the end of the source, which is announced only there, and every call returns.", "quantifier": "every source, every sequence of calls and configuration", "why_tests_cant": "sources are unbounded, and ten scanners share the text, each stopping where the next must start", "anchors": ["ecma/parser/lexer.go: lexTok, readTokWithComment, readTok, readName, readNamePvt, readNum, readStr, readTplSpan, readSymbol, readRegexp, skipSpace"]}
{"id": "C70", "title": "A walk reaches every node of the tree", "statement": "When the tree the parser made is walked with the default visitors, listeners are told about every node of it, of whatever type and wherever it is kept, once on entering and once on leaving it, and about nothing else.", "quantifier": "every tree made of the node types of the parser", "why_tests_cant": "there are about a hundred and fifty node types, each with its own fields and its own visitor, and trees nest them in all ways", "anchors": ["ecma/walk/visitor.go: the default visitors", "ecma/parser/ast.go, ecma/parser/jsx_ast.go, ecma/parser/ts_ast.go: the fields and accessors of the nodes", "ecma/parser/typinfo.go: TypInfo"]}
{"id": "C71", "title": "Braces, octals and await are read by where they are", "statement": "A closing brace continues a template exactly if it ends one of its substitutions and closes a brace otherwise; octal literals and the words reserved in strict code are read as such exactly in strict code; and in scripts await is a keyword exactly in async functions.", "quantifier": "every nesting of blocks, templates, functions, methods and classes, with and without use strict directives", "why_tests_cant": "the state is kept on a stack changed by the lexer and by the parser a token apart, and every nesting and order of constructs gives another history of it", "anchors": ["ecma/parser/lexer.go: PushMode, PopMode, AddMode, readTplSpan, readSymbol, aheadIsTplSpan", "ecma/parser/parser.go: stmts, enterStrict, fnDec, method, classDec"]}
{"id": "C72", "title": "Directives and what they make strict", "statement": "Exactly the string statements at the very beginning of a program or function body are reported as directives; the body is strict exactly if the code around it is or one of them is use strict written without escapes; and strict code with a legacy octal escape in a string is rejected, also if the string comes before the directive.", "quantifier": "every sequence of statements of a program, function body or block, in strict code or not", "why_tests_cant": "what a string statement does depends on all statements before it, and an early error looks back over them", "anchors": ["ecma/parser/parser.go: stmts, isDirective, enterStrict, primaryExpr", "ecma/parser/ast.go: ExprStmt.Dir"]}
{"id": "C73", "title": "The ESTree output says what the tree says", "statement": "A consumer that reads the ESTree output by the published standard gets the program that was parsed: every node with its range, flags, operators, names and children in their places, and nothing else; only parentheses are not represented.", "quantifier": "every syntax tree of JavaScript, JSX and TypeScript the parser makes, of any size and depth", "why_tests_cant": "the trees are infinitely many, and a wrong or swapped field of one node type shows only in programs which use it in a certain way", "anchors": ["ecma/estree/convert.go: Convert, ConvertProg, tplLiteral, importSpec, exportAll, exportNamed, ident", "ecma/estree/node.go", "ecma/estree/jsx_node.go", "ecma/estree/ts_convert.go: ConvertTsTyp, typParams, typArgs, tsParamProp, extends", "ecma/estree/ts_node.go", "ecma/parser/ast.go: node structs, PropKind.ToString, Prop.Method"]}
{"id": "C74", "title": "A slash divides after an operand and begins a regular expression before one", "statement": "Whether a slash in the source becomes a division or a regular expression depends only on the program around it as the language says: before an operand and at the beginning of a statement it is a regular expression, after an operand a division, however the parser looks ahead.", "quantifier": "every sequence of tokens of a program, and every sequence of calls by which the parser looks ahead and reads", "why_tests_cant": "the token before, the place in the program and the order in which tokens are looked at multiply to far more cases than tests hold", "anchors": ["ecma/parser/lexer.go: aheadIsRegexp, Next, Peek, PeekStmtBegin, PeekGrow, Peek2nd, advance", "ecma/parser/token.go: TokenKinds"]}
{"id": "C75", "title": "A token stays what it was read as while the parser uses it", "statement": "Whatever the parser reads between getting a token from the lexer and looking at it, it finds the token it got; in particular the operator of a prefix update in the tree is the one written in the source.", "quantifier": "every state of the ring of tokens and every sequence of lookaheads and reads between the two moments; every member chain after ++", "why_tests_cant": "the cell of a token is written over only when five more tokens have passed, at a place that depends on everything read before; tests update short names", "anchors": ["ecma/parser/lexer.go: TokensBuf, advance, readTok, Peek, Next", "ecma/parser/parser.go: updateExpr"]}
{"id": "C76", "title": "An accepted program is the program that was written", "statement": "Whenever the parser returns a tree for a source, the tokens of the source, all of them and in their order, are a way to write that tree by the rules of the language: no token is skipped, moved or invented, every bracket is closed by its own kind, and the literals and names of the source are those at the leaves of the tree from left to right.", "quantifier": "every list of tokens, of any length and nesting depth, every placement of line terminators, and every answer of the checks that only reject", "why_tests_cant": "the tree must account for every token of every source; tests compare the trees of some sources", "anchors": ["ecma/parser/parser.go: Prog, stmt, expr, assignExpr, binExpr, primaryExpr, fnDec, arrowFn, paramList, objLit, arrLit, callExpr, newExpr, tplExpr, bindingPattern, varDecStmt, forStmt, switchStmt, tryStmt, retStmt, classDec, classElem, importDec, exportDec, importCall"]}
{"id": "C77", "title": "Jumps, yield and await are only accepted where the language has them, and no program stops the parser", "statement": "Parsing a source ends with a tree or an error, never with a panic. In the tree of an accepted source every return is in a function, every break without a label is in a loop or a switch and every continue without a label in a loop of the same function, every yield is directly in a generator and every await directly in an async function, and every export is in the outermost scope.", "quantifier": "every list of tokens, of any length and nesting depth, every placement of line terminators, and every answer of the checks that only reject", "why_tests_cant": "the scopes and the stack of loops must be left as they were found by every function of the parser on every path; tests look at some jumps in some places", "anchors": ["ecma/parser/parser.go: Prog, stmt, fnDec, arrowFn, method, whileStmt, doWhileStmt, forStmt, switchStmt, tryStmt, retStmt, brkStmt, contStmt, yieldExpr, awaitExpr, parenExpr", "ecma/parser/symtab.go: EnterScope, LeaveScope"]}
{"id": "C78", "title": "Parsing ends, and the calls are not deeper than the source is long", "statement": "Parsing a source ends with an outcome, and the depth of the calls by which the functions of the parser call each other is at most linear in the number of tokens: no source makes the parser go round in circles.", "quantifier": "every list of tokens, of any length and nesting depth, every placement of line terminators, and every answer of the checks that only reject", "why_tests_cant": "that no path through the functions comes back to the same function before a token is taken is a claim about all paths; a test that does not end shows one path", "anchors": ["ecma/parser/parser.go: Prog, stmts, stmt, expr, assignExpr, binExpr, unaryExpr, newExpr, callExpr, memberExpr, argList, patternArr, patternObj, varDecStmt, switchStmt"]}
{"id": "C79", "title": "JSX elements are read by the rules of JSX", "statement": "If a JSX element is accepted, then the text that was taken is an element by the rules of JSX with this tree: its attributes, its children with their texts and white space, and for all the elements in it the closing tag has the name of the opening tag. Each text that is an element is accepted, with its tree. Reading an element always ends. Afterwards the lexer is in the mode it was in before.", "quantifier": "every text, of any length and nesting depth of elements, attributes and braces, and every reader of the expressions in braces", "why_tests_cant": "the lexer reads the same characters as different tokens in tags, between tags, in the values of attributes and in braces, and the parser switches between these modes while a token has been read ahead already; which mode a character is read in depends on all of the text before it", "anchors": ["ecma/parser/jsx.go: jsx, jsxOpen, jsxClose, jsxAttr, jsxAttrs, jsxName, jsxMember, jsxId, jsxExpr, jsxWsTxt", "ecma/parser/lexer.go: lexTok, ReadTok, readTokWithMode, PushMode, PopMode, readJsxStr, Peek, Next"]}
{"id": "C80", "title": "Types of TypeScript are read by their rules", "statement": "If a type is accepted, then the tokens that were taken are a type by the rules of TypeScript, with this tree. Each type is accepted with its tree, and its tokens are all that is taken: there is one way to read them. Members joined with | and & are a union of intersections in the order they are written in, with none lost. Reading a type always ends, takes at least one token and never crashes the parser.", "quantifier": "every list of tokens, of any length and nesting depth of types, and every reader of objects, templates, parameters and type parameters", "why_tests_cant": "an opening parenthesis may begin a type in parentheses or the parameters of a function type, and which one is known only after the closing one; the first parameter is read as a type and turned into a pattern afterwards; unions are built by a loop over priorities of operators in which the token after the type takes part; so the meaning of a token depends on tokens at any distance", "anchors": ["ecma/parser/ts.go: tsTyp, tsUnionOrIntersectType, tsPrimary, tsParen, tsRoughParamToParam, tsRoughParamToTyp, tsArr, tsTuple, tsTupleMember, tsRef, tsTypName, tsTypPredicate, tsTypArgs, tsCondType, tsImport, tsConstructTyp, tsPredefOrRef, tsAheadIsRo", "ecma/parser/parser.go: roughParam, paramList"]}
{"id": "C81", "title": "The ranges of nodes are those of their tokens, and they are nested", "statement": "In the tree of every accepted program each node begins where the first token of its text begins and ends where the last one ends. Its parts lie inside it, in the order of the source, and do not overlap. The program is the whole source, and its statements use up all tokens. (Found false for templates with a tag and what begins with one, for names after a dot that white space precedes, for the right operand of async * (a, b), and for a default of a computed key.)", "quantifier": "every list of tokens with places, of any length and nesting depth, every depth of calls, and every answer of the checks that depend on more than the tokens", "why_tests_cant": "where a node begins is looked up before its first token is taken, at a token that may or may not have been read ahead already; where it ends is the end of the last token taken, whichever function took it; nodes are made from others long after these were read (patterns out of expressions, arrow functions out of parentheses), so a range is right or wrong by the history of reads that led to it", "anchors": ["ecma/parser/parser.go: rng, finRng, tplExpr, memberExprPropDot, memberExprPropSubscript, callExpr, newExpr, fnDec, arrowFn, parenExpr, argToParam, patternAssign, varDecStmt, exprStmt, advanceIfSemi", "ecma/parser/lexer.go: Rng, FinRng, Peek, PeekGrow, Next"]}
{"id": "C82", "title": "Each comment is reported for one node", "statement": "Of a source without TypeScript, whatever the parser does with it: no comment is returned by PrevCmts or PostCmts for two nodes or on both sides of one, and what is returned for a node are comments of the source in their order. In programs of names and assignments each comment is returned for some node unless it waits for a statement that does not come; for statements that are names it is known which one. (Found false: a comment on a line of its own at the end is lost; one before an object is lost if one follows it; one after an expression is returned as preceding it; the third on a line before a statement is returned for the statement before; in TypeScript a comment may be returned twice.)", "quantifier": "every sequence of comments and tokens, every sequence of what the parser does to the lists of comments, every program of the small language", "why_tests_cant": "comments are put into two lists when a token is read ahead and are taken out by whichever production ends next, so what is reported for a node depends on how far the lexer was ahead of the parser at every earlier point", "anchors": ["ecma/parser/lexer.go: lexTok, takeExprCmts, takeStmtCmts, readTok, advance", "ecma/parser/parser.go: PrevCmts, PostCmts, stmts, assignExpr, primaryExpr, pushState, popState"]}
{"id": "C83", "title": "super and new.target are accepted where the language has them", "statement": "A program is accepted only if each super.x, super[x], super(…) and new.target in it is where ECMAScript allows it, and none of these is refused where it is allowed: super.x belongs to the method, field or static block around it, super(…) to the constructor of a class with extends, new.target to the function around it; blocks and arrow functions in between do not matter; computed keys and what follows extends belong to what is around the class. (Found false: super.x is accepted in a function in a class and in parts of computed keys, and refused in the blocks, parentheses and arrow functions of an object's methods; super[x] is always refused; new super() is accepted; super() is accepted in a class without extends that is in one with it, and refused in async arrow functions; new.target is accepted in arrow functions outside of functions.)", "quantifier": "every program, in any nesting of functions, arrow functions, methods, classes, fields, static blocks, computed keys and blocks", "why_tests_cant": "whether a use is accepted depends on flags that each construct around it adds, takes away or hands on, so that every combination and depth of nesting is a case of its own", "anchors": ["ecma/parser/parser.go: primaryExpr, checkCallee, newExpr, classDec, classElem, method, fnDec, arrowFn, propName, parenExpr, blockStmt", "ecma/parser/symtab.go: EnterScope, AddKind, EraseKind"]}
{"id": "C84", "title": "reserved words cannot be bound, and all other names can", "statement": "A declaration is accepted only if the name it binds is one ECMAScript lets be bound there, and a name is refused only if it is not: a reserved word never; one reserved in strict code, eval and arguments not in strict code, to which the names of classes and imports always belong, and the name and the parameters of a function whose body says \"use strict\"; yield not in a generator; await not in an async function or module; let not by let or const. It makes no difference how the name is written. (Found false: in, const, private, eval, arguments, yield and await are each accepted in some of these places, any keyword is in the pattern of a catch, an escape hides let, and await is refused in plain functions inside of async ones.)", "quantifier": "every name, with or without escapes, in each kind of binding (variables, patterns, catch, parameters, functions, classes, imports), in strict or sloppy code, script or module, in or outside of async functions and generators", "why_tests_cant": "two lists of words, a lexer mode, three token classes and a mark on the node decide together, in a different combination in each of ten places; tests have some of the words in some of the places", "anchors": ["ecma/parser/parser.go: isProhibitedName, identStrict, propName, namesInPattern, varDecStmt, tryStmt, fnDec, checkParams, classDec, importSpec, importNS", "ecma/parser/lexer.go: readName", "ecma/parser/token.go: IsKw, Keywords, StrictKeywords"]}
{"id": "C85", "title": "a function knows its return statements, and a throw statement where it is caught", "statement": "In an accepted program, the return statements that a function node gives (Rets, ExpRet) are exactly those of its own body, in the order of the source: not those of functions or classes inside of it, and not fewer because of what else is in it. The target of a throw statement is the innermost try statement of the same function whose block it is in, not its handler or finalizer, and the program if there is none. A return statement outside of functions is an error. (Found false: async(x), a call, after a return statement makes the function lose it, and the one around has it; a return in a static block is given to the function around, and is a panic if there is none; a throw in a function in a try block is said to be caught there, whenever the function is called.)", "quantifier": "every nesting of functions, methods, arrow functions, classes, blocks and try statements, with return and throw statements anywhere in them", "why_tests_cant": "the parser keeps two stacks by hand, pushed and popped in nine places, some of which are skipped on some paths; whether all agree depends on the nesting of everything in the file", "anchors": ["ecma/parser/parser.go: incRetsStk, decRetsStk, pushRetsStk, pushTryStk, popTryStk, lastTry, tryStmt, throwStmt, retStmt, fnDec, arrowFn, method", "ecma/parser/ast.go: FnDec.Rets, FnDec.ExpRet, ArrowFn.Rets, ArrowFn.ExpRet, ThrowStmt.Target", "ecma/analysis/ctrlflow.go: addHangingThrow"]}
{"id": "C86", "title": "Object literals and patterns are told apart", "statement": "A property with a default, `{a = 1}`, is accepted in an object that is assigned or bound to and nowhere else; two properties `__proto__: v` are accepted in such an object and refused in an object literal; a key that is neither a name nor followed by `:` is accepted in neither. What is refused for one of these reasons is in fact wrong.", "quantifier": "every expression of names, literals, members, functions, operators, parentheses, arrays, objects and assignments, nested without bound, at every kind of place an expression can stand", "why_tests_cant": "An object is read before it is known what it is, and checked by the code around it; the number of nestings of objects, arrays, parentheses and assignments has no bound, and so has no table of test cases.", "anchors": ["ecma/parser/parser.go:checkArg", "ecma/parser/parser.go:checkArgs", "ecma/parser/parser.go:parenExpr", "ecma/parser/parser.go:assignExpr", "ecma/parser/parser.go:propData", "ecma/parser/parser.go:seqExpr", "ecma/parser/parser.go:argToParam"]}
{"id": "C87", "title": "Class members get the modifiers written before them", "statement": "Every member of a TypeScript class gets the name and the modifiers (static, an access modifier, abstract, readonly, override, declare) that are written before it, and no others; a word that can be a modifier is one if and only if something it can modify follows; modifiers that may not stand together, in that order, before such a member or in such a class are an error.", "quantifier": "every sequence of tokens at the beginning of a class member (without get, set and async), with line breaks anywhere, in abstract and other classes, with and without a superclass", "why_tests_cant": "The six words can come in any number and order and each can also be the name; whether one is a name depends on the tokens and line breaks behind it. Tests can only try some of the sequences.", "anchors": ["ecma/parser/parser.go:modifiers", "ecma/parser/parser.go:classElem", "ecma/parser/parser.go:field", "ecma/parser/parser.go:isField", "ecma/parser/parser.go:classBody", "ecma/parser/ts.go:tsModifierOrder", "ecma/parser/ts.go:tsCheckLabeledOrder", "ecma/parser/ts.go:tsAdvanceHook"]}
{"id": "C88", "title": "Overload signatures are followed by their implementation", "statement": "A TypeScript program in which every signature of an overloaded function or method, other than ambient, optional and abstract ones, is right before another one of the same name or the implementation is not rejected for its signatures; any other is rejected; and no program makes the check stop the parser.", "quantifier": "every program, seen as a tree of functions and methods with and without bodies, nested and following one another without bound", "why_tests_cant": "One variable of the parser remembers a signature while everything between it and the next function is read; what it holds depends on the whole program before, of which tests only have short ones.", "anchors": ["ecma/parser/parser.go:fnDec", "ecma/parser/parser.go:method", "ecma/parser/parser.go:nameOfNode", "ecma/parser/ts.go:tsIsFnSigValid", "ecma/parser/ts.go:tsIsFnImplValid"]}
{"id": "C89", "title": "Decorators belong to what they are written before", "statement": "The decorators written right before a class declaration, a field or a method are those of that class, field or method in the tree, and of nothing else; decorators anywhere else are an error; and no decorator makes the parser panic.", "quantifier": "every program, seen as a tree of statements, classes, members, function bodies and decorators, nested and following one another without bound, with TypeScript on and off", "why_tests_cant": "One variable of the parser holds the decorators while everything behind them is read, so that what they end up at depends on all that is nested inside the member; the tests decorate members with empty bodies.", "anchors": ["ecma/parser/parser.go:stmt", "ecma/parser/parser.go:classDec", "ecma/parser/parser.go:classBody", "ecma/parser/parser.go:field", "ecma/parser/parser.go:method", "ecma/parser/ts.go:newTypInfo"]}
{"id": "C90", "title": "In TypeScript a `<` behind an expression is read as what it is", "statement": "With TypeScript on, a `<` behind an expression is read as the beginning of the type arguments of a call if it is one and as the operator otherwise; the tree that comes out is one the source is a way to write, and expressions that mean something without TypeScript, with no type arguments in them, mean the same with it.", "quantifier": "every expression out of names, members with `.` and `?.`, subscripts, calls with and without type arguments, the operators `<`, `>` and others, and parentheses, nested and following one another without bound, with type arguments nested to any depth", "why_tests_cant": "The parser tries type arguments at each `<` and goes back if that fails, with saved states, a set of places known to be operators and one shared error value left behind by each trial; whether the next `<` is read right depends on all of these, and the tests have one or two `<` each.", "anchors": ["ecma/parser/parser.go:callExpr", "ecma/parser/parser.go:argList", "ecma/parser/parser.go:addLtTok", "ecma/parser/parser.go:popState", "ecma/parser/ts.go:tsTryTypArgs", "ecma/parser/ts.go:tsTypArgs", "ecma/parser/ts.go:tsRef"]}
