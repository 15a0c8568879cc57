{
 "claims": [
  {
   "property": "C01",
   "status": "proved",
   "theorems": [
    "Mole.Span.decode_text",
    "Mole.Span.source_position",
    "Mole.Span.read_next",
    "Mole.Span.readAll_eq"
   ],
   "note": ""
  },
  {
   "property": "C02",
   "status": "proved",
   "theorems": [
    "Mole.Span.lookahead_predicts",
    "Mole.Span.advanceIf_eq",
    "Mole.Span.push_pop_restores"
   ],
   "note": ""
  },
  {
   "property": "C03",
   "status": "proved",
   "theorems": [
    "Mole.Span.ofstLineCol_eq",
    "Mole.Span.lineCol_eq",
    "Mole.Span.lineCol_reversed_panics",
    "Mole.Span.lineOf_mono"
   ],
   "note": ""
  },
  {
   "property": "C04",
   "status": "proved",
   "theorems": [
    "Mole.Span.skipSpace_eq"
   ],
   "note": "White space is unicode.IsSpace, as in the code."
  },
  {
   "property": "C05",
   "status": "proved",
   "theorems": [
    "Mole.Lexer.tokensBuf_fifo",
    "Mole.Lexer.full_eof_violated"
   ],
   "note": "Under the hypothesis that the end-of-file token is only scanned with a free slot; outside it a buffered token is overwritten (witness)."
  },
  {
   "property": "C06",
   "status": "partial",
   "theorems": [
    "Mole.Lexer.rewind_partial",
    "Mole.Lexer.rewind_flag_violated",
    "Mole.Lexer.rewind_repush_violated"
   ],
   "note": "Violated for flags changed in place and modes pushed again: the saved mode stack shares its array. Proved when neither happens below the saved height."
  },
  {
   "property": "C07",
   "status": "proved",
   "theorems": [
    "Mole.Lexer.modes_step",
    "Mole.Lexer.pushMode_popMode",
    "Mole.Lexer.inherit_bits",
    "Mole.Lexer.modes_nonempty",
    "Mole.Lexer.isMode_iff",
    "Mole.Lexer.popMode_bottom"
   ],
   "note": ""
  },
  {
   "property": "C08",
   "status": "partial",
   "theorems": [
    "Mole.Lexer.readEscapeSeq_iff",
    "Mole.Lexer.readEscapeSeq_legacy",
    "Mole.Lexer.readEscapeSeq_tpl",
    "Mole.Lexer.tpl_nul_violated",
    "Mole.Lexer.tpl_escape_fffd_violated",
    "Mole.Lexer.surrogate_violated"
   ],
   "note": "Proved as an equivalence with the grammar for strings and for every non-octal escape in templates. Violated: in templates \\\\0 and the escape for U+FFFD are rejected, surrogate pairs written as escapes become two U+FFFD."
  },
  {
   "property": "C09",
   "status": "partial",
   "theorems": [
    "Mole.Lexer.readStr_iff_partial",
    "Mole.Lexer.readStr_error_iff",
    "Mole.Lexer.readStr_terminates",
    "Mole.Lexer.strText_partial",
    "Mole.Lexer.readStr_encode",
    "Mole.Lexer.readJsxStr_iff",
    "Mole.Lexer.empty_continuation_violated",
    "Mole.Lexer.string_in_template_violated",
    "Mole.Lexer.surrogate_violated"
   ],
   "note": "Equivalence with the grammar outside template substitutions; violated for strings made of line continuations only, for \\\\0 inside substitutions, and for surrogate escapes."
  },
  {
   "property": "C10",
   "status": "partial",
   "theorems": [
    "Mole.Lexer.template_terminates_partial",
    "Mole.Lexer.template_hangs_violated",
    "Mole.Lexer.readTplChs_iff_partial"
   ],
   "note": "Violated: U+FFFD or an ill-formed byte in a template makes the scanner loop forever. Proved for all other sources."
  },
  {
   "property": "C11",
   "status": "partial",
   "theorems": [
    "Mole.Lexer.readNum_iff_partial",
    "Mole.Lexer.second_separator_violated",
    "Mole.Lexer.digit_after_literal_violated"
   ],
   "note": "An exact equivalence with the grammar; it differs from the property in two places where the code violates it: a separator after the first digit is rejected, and a digit may follow a binary, octal or BigInt literal."
  },
  {
   "property": "C12",
   "status": "proved",
   "theorems": [
    "Mole.Lexer.readSymbol_iff"
   ],
   "note": "Maximal munch over the full punctuator table under every feature set; the second attempt at << in TypeScript, which the scanner makes on purpose, is the one excluded case."
  },
  {
   "property": "C13",
   "status": "partial",
   "theorems": [
    "Mole.Lexer.scanName_iff_partial",
    "Mole.Lexer.scanName_plain",
    "Mole.Lexer.ascii_name_chars",
    "Mole.Lexer.unicode_name_chars",
    "Mole.Lexer.scanName_terminates",
    "Mole.Lexer.classify_keyword",
    "Mole.Lexer.classify_strict_partial",
    "Mole.Lexer.escaped_strict_keyword_violated",
    "Mole.Lexer.brace_escape_violated",
    "Mole.Lexer.escaped_start_violated",
    "Mole.Lexer.private_keyword_violated"
   ],
   "note": "Exact equivalence with the grammar the code implements; escape-free names and keywords in full. Violated: code point escapes are not checked, an escaped digit may start a name, escaped strict-mode keywords are accepted, #if is the keyword."
  },
  {
   "property": "C14",
   "status": "partial",
   "theorems": [
    "Mole.Lexer.regexpBody_iff_partial",
    "Mole.Lexer.regexpBody_first_slash_partial",
    "Mole.Lexer.readRegexp_terminates",
    "Mole.Lexer.regexpFlags_iff_partial",
    "Mole.Lexer.readRegexp_eq",
    "Mole.Lexer.slash_in_group_violated",
    "Mole.Lexer.lone_u_violated",
    "Mole.Lexer.duplicate_flag_violated"
   ],
   "note": "Exact equivalence with the grammar the code implements. Violated: a slash inside parentheses does not end the literal, a lone \\u is rejected, flags may repeat."
  },
  {
   "property": "C15",
   "status": "partial",
   "theorems": [
    "Mole.Lexer.skipSpace_runes",
    "Mole.Lexer.blockComment_iff",
    "Mole.Lexer.blockComment_error_iff",
    "Mole.Lexer.lineComment_eq",
    "Mole.Lexer.lexTrivia_partial",
    "Mole.Lexer.lexTrivia_terminates",
    "Mole.Lexer.newline_before_comment_violated",
    "Mole.Lexer.newline_in_comment_violated"
   ],
   "note": "Comment extents are proved in full. The line-terminator flag is violated when a comment follows the line feed; proved is exactly what it does say."
  },
  {
   "property": "C16",
   "status": "partial",
   "theorems": [
    "Mole.Lexer.readJSXTxt_partial",
    "Mole.Lexer.second_reference",
    "Mole.Lexer.readJSXTxt_terminates",
    "Mole.Lexer.independent_violated",
    "Mole.Lexer.second_unknown_violated",
    "Mole.Lexer.ampersand_violated",
    "Mole.Lexer.numeric_violated"
   ],
   "note": "Violated: the entity buffer is not reset, so a second reference is looked up under the text of the first. Proved for texts with one distinct reference, for an arbitrary entity table."
  },
  {
   "property": "C17",
   "status": "partial",
   "theorems": [
    "Mole.Parser.binExpr_grouped_iff_partial",
    "Mole.Parser.grouped_unique",
    "Mole.Parser.good_two",
    "Mole.Parser.good_falling",
    "Mole.Parser.good_rising",
    "Mole.Parser.precedence_violated",
    "Mole.Parser.precedence_arith_violated"
   ],
   "note": "Violated: the inner loop raises its own threshold, so a || b == c && d becomes (a || b == c) && d. The chains grouped correctly are characterised exactly, and the specified tree is shown unique."
  },
  {
   "property": "C18",
   "status": "proved",
   "theorems": [
    "Mole.Parser.binExpr_yield",
    "Mole.Parser.binExpr_terminates"
   ],
   "note": "All chains, all configurations."
  },
  {
   "property": "C19",
   "status": "proved",
   "theorems": [
    "Mole.Parser.binExpr_rejects_iff"
   ],
   "note": "Exactly the chains that mix ?? with && or ||, or put a unary operand left of **; for complete chains without arrow-function operands and with ** enabled."
  },
  {
   "property": "C20",
   "status": "partial",
   "theorems": [
    "Mole.Parser.Semi.semi_iff_partial",
    "Mole.Parser.Semi.semi_sound",
    "Mole.Parser.Semi.return_line",
    "Mole.Parser.Semi.return_operand",
    "Mole.Parser.Semi.throw_line",
    "Mole.Parser.Semi.throw_operand",
    "Mole.Parser.Semi.jump_label",
    "Mole.Parser.Semi.comma_violated",
    "Mole.Parser.Semi.export_default_violated",
    "Mole.Parser.Semi.field_end_violated",
    "Mole.Parser.Semi.return_semis_violated"
   ],
   "note": "Exact unless a stray , ) or : follows; the restricted productions in full. Violated: no terminator is required after export default, and return; consumes a second semicolon."
  },
  {
   "property": "C21",
   "status": "partial",
   "theorems": [
    "Mole.Parser.Sym.declarations_accepted",
    "Mole.Parser.Sym.declarations_iff_partial",
    "Mole.Parser.Sym.deep_var_violated",
    "Mole.Parser.Sym.class_redeclared_violated",
    "Mole.Parser.Sym.class_expr_violated",
    "Mole.Parser.Sym.top_fn_var_violated",
    "Mole.Parser.Sym.strict_fn_violated",
    "Mole.Parser.Sym.block_fn_violated",
    "Mole.Parser.Sym.catch_var_violated"
   ],
   "note": "For var, let, const and parameters: everything the language allows is accepted, and an equivalence when no var is hoisted out of more than one block. Functions, classes and catch parameters violate it, each with a witness."
  },
  {
   "property": "C22",
   "status": "proved",
   "theorems": [
    "Mole.Parser.Sym.binding_resolves",
    "Mole.Parser.Sym.binding_nearest"
   ],
   "note": "binding_nearest is about any chain of scopes; binding_resolves ties it to the declarations of the program (var, let, const, parameters)."
  },
  {
   "property": "C23",
   "status": "partial",
   "theorems": [
    "Mole.Parser.Sym.balanced_returns",
    "Mole.Parser.Sym.scope_numbers_partial",
    "Mole.Parser.Sym.scope_table_partial",
    "Mole.Parser.Sym.scope_context",
    "Mole.Parser.Sym.scope_number_violated"
   ],
   "note": "Balance and context in full. Identities: the temporary scope of a parenthesised expression reuses the number of the last scope entered and replaces it in the table."
  },
  {
   "property": "C24",
   "status": "partial",
   "theorems": [
    "Mole.Parser.Sym.jumps_accepted_partial",
    "Mole.Parser.Sym.jumps_iff_partial",
    "Mole.Parser.Sym.jumps_no_panic",
    "Mole.Parser.Sym.try_break_violated",
    "Mole.Parser.Sym.continue_block_violated",
    "Mole.Parser.Sym.else_label_violated",
    "Mole.Parser.Sym.label_twice_violated"
   ],
   "note": "Every valid program is accepted with the right targets unless an if/else has a label in its first branch; exactness outside the forms shown to violate it. Panic freedom and balance for all programs."
  },
  {
   "property": "C25",
   "status": "partial",
   "theorems": [
    "Mole.Parser.Pat.params_error_iff",
    "Mole.Parser.Pat.params_dup_iff",
    "Mole.Parser.Pat.arrow_nodup_partial",
    "Mole.Parser.Pat.arrow_dup_violated"
   ],
   "note": "Duplicates are found exactly when the function is strict or has a parameter that is not a plain name. Violated: (a, a) => 1 and sloppy methods accept duplicates."
  },
  {
   "property": "C26",
   "status": "partial",
   "theorems": [
    "Mole.Parser.Sym.checkExp_iff_partial",
    "Mole.Parser.Sym.module_exports_partial",
    "Mole.Parser.Sym.star_as_twice_violated"
   ],
   "note": "Exact for modules without export * as; those are not counted."
  },
  {
   "property": "C27",
   "status": "partial",
   "theorems": [
    "Mole.Parser.Sym.switch_default_partial",
    "Mole.Parser.Sym.switch_one_default",
    "Mole.Parser.Sym.two_defaults_violated"
   ],
   "note": "Violated: two default clauses with a case between them are accepted. Proved for clauses in a row, and that one default is never an error."
  },
  {
   "property": "C28",
   "status": "partial",
   "theorems": [
    "Mole.Parser.Sym.import_redeclared_partial",
    "Mole.Parser.Sym.import_twice_violated"
   ],
   "note": "Violated: the error of declaring an import is dropped. Proved: later let, const and var declarations of an imported name are rejected."
  },
  {
   "property": "C29",
   "status": "partial",
   "theorems": [
    "Mole.Parser.assign_shape",
    "Mole.Parser.assign_terminates",
    "Mole.Parser.assign_accepts",
    "Mole.Parser.assign_rejects",
    "Mole.Parser.assign_right",
    "Mole.Parser.cond_right",
    "Mole.Parser.Pat.target_iff_partial",
    "Mole.Parser.Pat.op_target_iff_partial",
    "Mole.Parser.Pat.paren_member_violated",
    "Mole.Parser.Pat.double_paren_violated",
    "Mole.Parser.Pat.rest_member_violated",
    "Mole.Parser.Pat.op_pattern_violated",
    "Mole.Parser.Pat.update_operand_iff_partial",
    "Mole.Parser.Pat.update_operand_violated"
   ],
   "note": "Grouping in full; which left sides and operands of ++ are valid is an equivalence with the grammar outside the forms shown to violate it: (a.b) = 1, ((a)) = 1, [...a.b] = c and (a.b)++ are rejected, f([a] += 1) and [a]++ are accepted."
  },
  {
   "property": "C30",
   "status": "partial",
   "theorems": [
    "Mole.Parser.Pat.arrow_params_same",
    "Mole.Parser.Pat.arrow_params_names",
    "Mole.Parser.Pat.arrow_accepts_iff_partial",
    "Mole.Parser.Pat.arrow_defaults_partial",
    "Mole.Parser.Pat.target_defaults_partial",
    "Mole.Parser.Pat.default_accepted_iff",
    "Mole.Parser.Pat.member_bound_violated",
    "Mole.Parser.Pat.paren_bound_violated",
    "Mole.Parser.Pat.nested_default_violated",
    "Mole.Parser.Pat.function_default_violated",
    "Mole.Parser.Pat.computed_default_violated"
   ],
   "note": "No loss and the bound names in full. Acceptance is an equivalence with the grammar outside five forms, each shown to violate it."
  },
  {
   "property": "C31",
   "status": "proved",
   "theorems": [
    "Mole.Parser.Feat.turn_has",
    "Mole.Parser.Feat.setup_has",
    "Mole.Parser.Feat.setup_idem",
    "Mole.Parser.Feat.mergeJson_has"
   ],
   "note": ""
  },
  {
   "property": "C32",
   "status": "partial",
   "theorems": [
    "Mole.Exec.exec_value_partial",
    "Mole.Exec.exec_truth_partial",
    "Mole.Exec.div_violated",
    "Mole.Exec.logical_violated",
    "Mole.Exec.cond_violated",
    "Mole.Exec.null_violated",
    "Mole.Exec.loose_violated",
    "Mole.Exec.bool_add_violated",
    "Mole.Exec.unary_violated",
    "Mole.Exec.nan_violated",
    "Mole.Exec.computed_violated",
    "Mole.Exec.index_violated",
    "Mole.Exec.length_violated",
    "Mole.Exec.includes_violated",
    "Mole.Exec.int_truth",
    "Mole.Exec.int_violated"
   ],
   "note": "Values agree with JavaScript for the expressions the specification calls Right; each excluded form is shown to violate the property."
  },
  {
   "property": "C33",
   "status": "partial",
   "theorems": [
    "Mole.Exec.exec_stack_partial",
    "Mole.Exec.cond_stack_violated",
    "Mole.Exec.operator_stack_violated",
    "Mole.Exec.hole_stack_violated"
   ],
   "note": "One result on the stack for every expression without conditional expressions, operators without an implementation, and array holes; each of these violates it."
  },
  {
   "property": "C34",
   "status": "partial",
   "theorems": [
    "Mole.Exec.select_covers",
    "Mole.Exec.select_partial",
    "Mole.Exec.holds_of_no_panic",
    "Mole.Exec.else_if_violated",
    "Mole.Exec.operator_twice_violated"
   ],
   "note": "select_partial states the selection for programs whose conditions the evaluator gets right; else-if and nested operators violate the property."
  },
  {
   "property": "C35",
   "status": "proved",
   "theorems": [
    "Mole.Astutil.isFnDepsOnNode_iff",
    "Mole.Astutil.isFnDepsOnNode_ends"
   ],
   "note": ""
  },
  {
   "property": "C36",
   "status": "partial",
   "theorems": [
    "Mole.Util.lru_recency_partial",
    "Mole.Util.lru_never_forgets",
    "Mole.Util.lru_capacity_violated",
    "Mole.Util.lru_list_overflow_violated",
    "Mole.Util.lru_small_capacity_violated"
   ],
   "note": "The code violates the property: the dictionary is never cleaned. Proved: what the recency list does, and that HasKey is true for every key ever set."
  },
  {
   "property": "C37",
   "status": "proved",
   "theorems": [
    "Mole.Util.lru_get_last_set",
    "Mole.Util.orderedMap_refines"
   ],
   "note": "The LRU part covers every interleaving of the locked sections."
  },
  {
   "property": "C38",
   "status": "proved",
   "theorems": [
    "Mole.Util.orderedMap_refines"
   ],
   "note": ""
  },
  {
   "property": "C39",
   "status": "partial",
   "theorems": [
    "Mole.Util.Json.removeJsonComments_partial",
    "Mole.Util.Json.removeJsonComments_id_partial",
    "Mole.Util.Json.string_end_violated",
    "Mole.Util.Json.replacement_char_violated"
   ],
   "note": "Violated when a string ends in an escaped backslash and for U+FFFD; proved for all other texts."
  },
  {
   "property": "C40",
   "status": "partial",
   "theorems": [
    "Mole.Util.Json.removeJsonComments_offsets_partial",
    "Mole.Util.Json.block_linefeed_violated",
    "Mole.Util.Json.non_ascii_violated",
    "Mole.Util.Json.crlf_violated",
    "Mole.Util.Json.fixpoint_violated"
   ],
   "note": "Violated for line feeds or non-ASCII characters in comments, CRLF, and trailing commas before comments."
  },
  {
   "property": "C41",
   "status": "partial",
   "theorems": [
    "Mole.Util.mergeMap_getByPath",
    "Mole.Util.mergeMaps_append",
    "Mole.Util.mergeMap_on_heap",
    "Mole.Util.mergeMaps_aliasing_violated"
   ],
   "note": "The lookup law is proved in full for map values, and one merge of separate maps by reference is shown to do the same and to leave the source alone; MergeMaps can modify its own sources through sharing (witness)."
  },
  {
   "property": "C42",
   "status": "partial",
   "theorems": [
    "Mole.Util.flattenMap_partial",
    "Mole.Util.getByPath_leaf_partial",
    "Mole.Util.flatten_collision_violated",
    "Mole.Util.getByPath_slice_violated"
   ],
   "note": "Violated for keys with dots and for leaves inside slices."
  },
  {
   "property": "C43",
   "status": "proved",
   "theorems": [
    "Mole.Util.swap_spec",
    "Mole.Util.removeAt_perm",
    "Mole.Util.includes_iff",
    "Mole.Util.copySlice_eq",
    "Mole.Util.mergeSets_lookup",
    "Mole.Util.cloneMap_lookup",
    "Mole.Util.takeOne_spec"
   ],
   "note": "Independence of the copy is immediate in the value model."
  },
  {
   "property": "C44",
   "status": "proved",
   "theorems": [
    "Mole.Conc.walk_exactly_once",
    "Mole.Conc.walk_at_most_once",
    "Mole.Conc.walk_no_panic"
   ],
   "note": "Over all interleavings of the walk, its workers and the senders, for any tree and any number of workers."
  },
  {
   "property": "C45",
   "status": "partial",
   "theorems": [
    "Mole.Conc.walk_terminates",
    "Mole.Conc.walk_returns_partial",
    "Mole.Conc.unreadable_deadlock_violated",
    "Mole.Conc.stop_twice_deadlock_violated",
    "Mole.Conc.blank_deadlock_violated",
    "Mole.Conc.negative_deadlock_violated"
   ],
   "note": "No schedule goes on for ever, in full. It does not end in a deadlock if there are fewer failing reads and calls of Stop than workers; violated otherwise, for an empty root path, and for a negative number of workers."
  },
  {
   "property": "C46",
   "status": "partial",
   "theorems": [
    "Mole.Conc.Cache.received_sound",
    "Mole.Conc.Cache.send_never_blocks",
    "Mole.Conc.Cache.one_value",
    "Mole.Conc.Cache.value_arrives_partial",
    "Mole.Conc.Cache.no_panic_partial",
    "Mole.Conc.Cache.parse_once_partial",
    "Mole.Conc.Cache.known_panics_violated",
    "Mole.Conc.Cache.two_waiters_violated",
    "Mole.Conc.Cache.double_parse_violated",
    "Mole.Conc.Cache.nil_parse_violated"
   ],
   "note": "What is received is right and the parsing goroutine never blocks. Violated: a second caller that waits may wait for ever, two callers may both parse, a failed parse is repeated, and a cached result of the wrong kind panics."
  },
  {
   "property": "C47",
   "status": "partial",
   "theorems": [
    "Mole.Walk.walk_calls_partial",
    "Mole.Walk.walk_visits_partial",
    "Mole.Walk.brackets_once",
    "Mole.Walk.visitors_cover",
    "Mole.Walk.empty_stmt_violated",
    "Mole.Walk.fn_dec_violated"
   ],
   "note": "Every tree and any listeners that do not stop the walk: the calls are exactly those due. Bracketing for trees whose nodes have a visitor that announces their own type; the empty statement and function and class declarations violate it."
  },
  {
   "property": "C48",
   "status": "partial",
   "theorems": [
    "Mole.Walk.stop_partial",
    "Mole.Walk.stop_violated"
   ],
   "note": "Violated: after Stop the first child is still entered and the first listeners for leaving the ancestors are still called. Proved: the context is unwound and exactly such calls, a part of those still due, are made."
  },
  {
   "property": "C49",
   "status": "partial",
   "theorems": [
    "Mole.Walk.walk_scopes_partial",
    "Mole.Walk.scope_numbers_partial",
    "Mole.Walk.for_in_scope_violated",
    "Mole.Walk.while_scope_violated"
   ],
   "note": "The walker numbers scopes in order of opening and returns to the enclosing one. Its numbers are the parser's for trees without the forms shown to violate it."
  },
  {
   "property": "C50",
   "status": "proved",
   "theorems": [
    "Mole.Graph.iter_exact",
    "Mole.Graph.iter_ends"
   ],
   "note": ""
  },
  {
   "property": "C51",
   "status": "partial",
   "theorems": [
    "Mole.Cfg.incoming_edges_lead_to_their_block_partial",
    "Mole.Cfg.edges_are_recorded_at_both_ends_violated"
   ],
   "note": "Every incoming edge of a reachable block leads to it. Violated: `a && b;` has an edge whose other end is recorded as coming from a block that has been joined into another."
  },
  {
   "property": "C52",
   "status": "partial",
   "theorems": [
    "Mole.Lexer.parseFloat_radix_partial",
    "Mole.Lexer.parseFloat_legacy_partial",
    "Mole.Lexer.parseFloat_decimal_partial",
    "Mole.Lexer.parseFloat_zero",
    "Mole.Lexer.parseBigint_eq",
    "Mole.Lexer.large_hex_violated",
    "Mole.Lexer.leading_zero_violated"
   ],
   "note": "Violated for radix literals of 2^32 and more and for decimals starting with 0. strconv.ParseFloat is trusted. BigInt is proved in full."
  },
  {
   "property": "C53",
   "status": "partial",
   "theorems": [
    "Mole.Estree.first_extreme_partial",
    "Mole.Estree.last_extreme",
    "Mole.Estree.first_perm",
    "Mole.Estree.last_perm",
    "Mole.Estree.all_empty",
    "Mole.Estree.first_max_violated"
   ],
   "note": "LastLoc in full. FirstLoc for ranges that do not start at the largest 32-bit number."
  },
  {
   "property": "C54",
   "status": "partial",
   "theorems": [
    "Mole.Estree.tpl_convert_partial",
    "Mole.Estree.tpl_parse",
    "Mole.Estree.string_expr_violated"
   ],
   "note": "Violated: a string literal as an interpolated expression is taken for a part of the text."
  },
  {
   "property": "C55",
   "status": "partial",
   "theorems": [
    "Mole.Parser.Pat.paren_no_panic_partial",
    "Mole.Parser.Pat.paren_panics_violated",
    "Mole.Parser.Pat.hole_panics_violated"
   ],
   "note": "Violated by (a = [,]). Proved for expressions whose default values have no holes or valueless properties."
  },
  {
   "property": "C56",
   "status": "partial",
   "theorems": [
    "Mole.Parser.Pat.paren_same_partial",
    "Mole.Parser.Pat.paren_accepted_iff_partial",
    "Mole.Parser.Pat.paren_shorthand_rejected",
    "Mole.Parser.Pat.paren_content",
    "Mole.Parser.Pat.paren_array_violated",
    "Mole.Parser.Pat.paren_assign_violated",
    "Mole.Parser.Pat.paren_shorthand_violated"
   ],
   "note": "Violated: object properties with literal or assignment values are relabelled as patterns, and ({ k: { a = 1 } }) is accepted. Proved in general: only labels change."
  },
  {
   "property": "C57",
   "status": "partial",
   "theorems": [
    "Mole.Parser.Sym.declare_no_panic_partial",
    "Mole.Parser.Sym.class_var_panics_violated"
   ],
   "note": "Violated by { class A {} var A; } var A;. Proved for variables, constants, parameters, functions and catch parameters in any order."
  },
  {
   "property": "C58",
   "status": "partial",
   "theorems": [
    "Mole.Parser.Sym.jumps_iff_partial",
    "Mole.Parser.Sym.static_return_violated"
   ],
   "note": "Violated in static blocks; exact elsewhere."
  },
  {
   "property": "C59",
   "status": "partial",
   "theorems": [
    "Mole.Walk.events_distinct",
    "Mole.Walk.declaration_events_violated",
    "Mole.Walk.atom_events_violated"
   ],
   "note": "Event numbers never collide. Violated: listeners for function and class declarations and for all atoms are never called."
  },
  {
   "property": "C60",
   "status": "partial",
   "theorems": [
    "Mole.Exec.exec_no_panic_partial",
    "Mole.Exec.index_panics_violated"
   ],
   "note": "Violated by an index beyond the range of int."
  },
  {
   "property": "C61",
   "status": "partial",
   "theorems": [
    "Mole.Astutil.build_captures_partial",
    "Mole.Astutil.build_depends_partial",
    "Mole.Astutil.build_uses_partial",
    "Mole.Astutil.build_no_panic_partial",
    "Mole.Astutil.after_inner_violated",
    "Mole.Astutil.sibling_violated",
    "Mole.Astutil.no_init_panics_violated"
   ],
   "note": "The current function is not restored after an inner function; exact where nothing follows one."
  },
  {
   "property": "C62",
   "status": "partial",
   "theorems": [
    "Mole.Astutil.contains_sound",
    "Mole.Astutil.contains_iff_partial",
    "Mole.Astutil.empty_stmt_contains_violated"
   ],
   "note": "Yes is always right. No is right for trees whose nodes all have visitors; the empty statement has none."
  },
  {
   "property": "C63",
   "status": "proved",
   "theorems": [
    "Mole.Conc.walk_order"
   ],
   "note": ""
  },
  {
   "property": "C64",
   "status": "partial",
   "theorems": [
    "Mole.Cfg.every_run_is_a_path_partial",
    "Mole.Cfg.all_code_is_reachable_partial",
    "Mole.Cfg.nothing_is_marked_dead_partial",
    "Mole.Cfg.every_run_is_a_path_violated",
    "Mole.Cfg.run_of_for_with_or_violated",
    "Mole.Cfg.run_of_for_with_and_violated",
    "Mole.Cfg.run_of_for_with_or_first_violated",
    "Mole.Cfg.run_of_each_violated"
   ],
   "note": "Proved for expression statements, declarations, blocks, if, while, do-while and for (;;) with all expressions but optional chains, functions and the like, in which no test is `a ?? b` and, in the head of a for, the test is not `a || b` and the other parts are not logical operations. nothing_is_marked_dead_partial holds for for-in and for-of too. Violated: `if (a ?? b) c; else d;` has no path for a false, not absent, value of a; `for (; a || b;) c;` has no path from a to c, `for (; a; b && c) d;` none from b to a and `for (a || b; c;) d;` none from a to c; `for (a of b) c;` has only paths that pass a before b, and b again in each round."
  },
  {
   "property": "C65",
   "status": "partial",
   "theorems": [
    "Mole.Parser.Postfix.grammar_unambiguous",
    "Mole.Parser.Postfix.postfix_total",
    "Mole.Parser.Postfix.postfix_grouping_partial",
    "Mole.Parser.Postfix.chain_decides_partial",
    "Mole.Parser.Postfix.new_then_template_violated",
    "Mole.Parser.Postfix.template_after_new_violated",
    "Mole.Parser.Postfix.nested_new_violated",
    "Mole.Parser.Postfix.new_optional_violated",
    "Mole.Parser.Postfix.optional_call_violated",
    "Mole.Parser.Postfix.template_in_chain_violated",
    "Mole.Parser.Postfix.new_target_violated",
    "Mole.Parser.Postfix.delete_panic_iff",
    "Mole.Parser.Postfix.delete_err_iff",
    "Mole.Parser.Postfix.delete_chain_violated"
   ],
   "note": "Every expression of the grammar outside listed forms gets its tree; without new and templates an equivalence. Violated: new C()`t`, new new a()(), a?.()(), a?.b()`t`, new.target(), new new a()?.b are grouped wrongly, cut off or wrongly accepted, and delete a?.b() panics."
  },
  {
   "property": "C66",
   "status": "partial",
   "theorems": [
    "Mole.Parser.Sym.Merging.two_declarations_partial",
    "Mole.Parser.Sym.Merging.order_irrelevant",
    "Mole.Parser.Sym.Merging.later_against_first",
    "Mole.Parser.Sym.Merging.compatible_accepted_partial",
    "Mole.Parser.Sym.Merging.odd_pairs_violated",
    "Mole.Parser.Sym.Merging.third_declaration_violated",
    "Mole.Parser.Sym.Merging.import_violated",
    "Mole.Parser.Sym.Merging.overload_violated"
   ],
   "note": "Exact but for eleven listed pairs of forms, on each of which every answer is proved wrong: enum with namespace and declare function with interface or type are rejected, class with let, namespace with let and others accepted. From the third declaration on only the first is looked at, imports are never refused, and an overload signature frees its name."
  },
  {
   "property": "C67",
   "status": "proved",
   "theorems": [
    "Mole.Parser.Pvt.private_names"
   ],
   "note": ""
  },
  {
   "property": "C68",
   "status": "partial",
   "theorems": [
    "Mole.Parser.Cls.class_body_exact_partial",
    "Mole.Parser.Cls.class_body_iff_partial",
    "Mole.Parser.Cls.valid_accepted_partial",
    "Mole.Parser.Cls.object_method_partial",
    "Mole.Parser.Cls.shape_iff_partial",
    "Mole.Parser.Cls.third_accessor_violated",
    "Mole.Parser.Cls.accepted_ctor_violated",
    "Mole.Parser.Cls.rejected_violated",
    "Mole.Parser.Cls.private_prototype_violated",
    "Mole.Parser.Cls.object_method_violated",
    "Mole.Parser.Cls.shape_violated"
   ],
   "note": "Exact for elements written plainly. Violated: get #a, set #a, get #a, #constructor and a second constructor with an escape are accepted; static constructor methods beside the constructor, static accessors called constructor, computed keys with the text constructor or prototype, static #prototype and, in object literals, accessors called constructor are rejected; quoted get and set make accessors; get * on one line is accepted."
  },
  {
   "property": "C69",
   "status": "partial",
   "theorems": [
    "Mole.Lexer.tokens_tile",
    "Mole.Lexer.tokens_iff_partial",
    "Mole.Lexer.token_nonempty",
    "Mole.Lexer.lex_terminates_partial",
    "Mole.Lexer.lex_hangs_violated"
   ],
   "note": "Soundness holds for all tokens, the equivalence for all but parts of templates with an illegal escape. In TypeScript a table decides whether << is one token, tokens at which it has no entry are left out. Violated: U+FFFD in a template is read forever."
  },
  {
   "property": "C70",
   "status": "partial",
   "theorems": [
    "Mole.Walk.walk_reaches_partial",
    "Mole.Walk.decorators_violated",
    "Mole.Walk.annotation_violated",
    "Mole.Walk.alias_violated",
    "Mole.Walk.parens_violated",
    "Mole.Walk.namespace_violated"
   ],
   "note": "Holds for trees without types, decorators, JSX namespaces and double parentheses, except for empty statements (C47). Violated: decorators are never reached, type annotations and the right hand side of type aliases are not reached, the inner one of two parentheses is not, and the two parts of a JSX namespaced name are not."
  },
  {
   "property": "C71",
   "status": "partial",
   "theorems": [
    "Mole.Lexer.ModeUse.braces_partial",
    "Mole.Lexer.ModeUse.strict_partial",
    "Mole.Lexer.ModeUse.await_partial",
    "Mole.Lexer.ModeUse.no_async",
    "Mole.Lexer.ModeUse.generator_misread_violated",
    "Mole.Lexer.ModeUse.generator_strict_violated",
    "Mole.Lexer.ModeUse.directive_token_violated",
    "Mole.Lexer.ModeUse.directive_block_violated",
    "Mole.Lexer.ModeUse.await_leak_violated",
    "Mole.Lexer.ModeUse.async_method_violated"
   ],
   "note": "Holds in programs without generator functions, if no directive is followed at once by a token depending on it; await is a keyword wherever it has to be if there are no async methods. Violated: a generator function takes a mode off the stack which it did not put there, the token after a directive is read before it takes effect, a block after a directive takes the effect away from the rest, await stays a keyword after an async function and is none in an async method. JSX and type arguments are left out."
  },
  {
   "property": "C72",
   "status": "partial",
   "theorems": [
    "Mole.Parser.Directive.directives_partial",
    "Mole.Parser.Directive.block_directives",
    "Mole.Parser.Directive.strict_by_any",
    "Mole.Parser.Directive.late_strict_violated",
    "Mole.Parser.Directive.late_octal_violated",
    "Mole.Parser.Directive.late_directive_violated"
   ],
   "note": "Holds if no statement after the prologue is only a string. Violated otherwise when the first statement is a string: a later string is reported as a directive and a later use strict makes the code strict. strict_by_any says exactly when code becomes strict. When the lexer follows is C71."
  },
  {
   "property": "C73",
   "status": "partial",
   "theorems": [
    "Mole.Estree.Conv.tree_partial",
    "Mole.Estree.Conv.prog_partial",
    "Mole.Estree.Conv.faithful_partial",
    "Mole.Estree.Conv.generator_says",
    "Mole.Estree.Conv.async_says",
    "Mole.Estree.Conv.regexp_violated",
    "Mole.Estree.Conv.namespace_violated",
    "Mole.Estree.Conv.directive_violated",
    "Mole.Estree.Conv.sourceType_violated",
    "Mole.Estree.Conv.declareAlias_violated",
    "Mole.Estree.Conv.declareClass_violated",
    "Mole.Estree.Conv.declareFunction_violated",
    "Mole.Estree.Conv.optionalPattern_violated",
    "Mole.Estree.Conv.droppedDecorators_violated",
    "Mole.Estree.Conv.require_violated",
    "Mole.Estree.Conv.readonlyKey_violated",
    "Mole.Estree.Conv.stringKey_violated",
    "Mole.Estree.Conv.exportTypeAll_violated",
    "Mole.Estree.Conv.templateArgs_violated"
   ],
   "note": "generator_says and async_says: what the output says to be a generator or async is so in the tree. The others hold for all trees without a regular expression literal, a namespaced JSX name, a directive with an escape, or a string literal as substitution in a template (C54); the program itself never says whether it is a script or a module. Of TypeScript excluded are: declare before a generic alias or a class with types or decorators, * before a function without a body, ? after an object pattern, decorators of patterns and class expressions, a second argument of require, readonly before keys which are not names, string keys of types (panic), export type * and templates tagged by a call with types; for each a theorem shows what is lost. Arrow functions and parameter properties are assumed to have non-empty ranges below 2^32-1; number values are C52, lines and columns C03."
  },
  {
   "property": "C74",
   "status": "partial",
   "theorems": [
    "Mole.Lexer.Slash.slash_after",
    "Mole.Lexer.Slash.slash_at_begin",
    "Mole.Lexer.Slash.lex_partial",
    "Mole.Lexer.Slash.literal_violated",
    "Mole.Lexer.Slash.template_violated",
    "Mole.Lexer.Slash.span_violated",
    "Mole.Lexer.Slash.unary_violated",
    "Mole.Lexer.Slash.member_violated",
    "Mole.Lexer.Slash.in_violated",
    "Mole.Lexer.Slash.after_if_violated",
    "Mole.Lexer.Slash.stale_violated"
   ],
   "note": "slash_after says exactly after which tokens the decision is wrong: after null, true, false, templates and words as member names a division is read as a regular expression; after typeof, void, delete, await, spread, ++, --, in and in later places of templates a regular expression as a division. lex_partial: all other slashes are read rightly, if the parser says where statements begin and does not read ahead while a token waits; violated after if and try statements, and in TypeScript for x ? /re/ : y."
  },
  {
   "property": "C75",
   "status": "partial",
   "theorems": [
    "Mole.Lexer.Alias.token_kept_iff",
    "Mole.Lexer.Alias.direct_lost",
    "Mole.Lexer.Alias.update_op_iff",
    "Mole.Lexer.Alias.update_op_violated"
   ],
   "note": "token_kept_iff: a token looked at is the same as long as none is written after four more have been read ahead, and not after; a token read without a look is lost with the next one. update_op_iff: the operator of ++a.b.c is right with at most two members; update_op_violated: in ++a.b.c.d; the operator of the node is the semicolon."
  },
  {
   "property": "C76",
   "status": "partial",
   "theorems": [
    "Mole.Parser.Prog.program_accounts_partial",
    "Mole.Parser.Prog.program_strict_partial",
    "Mole.Parser.Prog.program_brackets",
    "Mole.Parser.Prog.program_literals_partial",
    "Mole.Parser.Prog.async_name_violated",
    "Mole.Parser.Prog.async_product_violated",
    "Mole.Parser.Prog.accessor_violated",
    "Mole.Parser.Prog.async_fn_violated",
    "Mole.Parser.Prog.fn_expr_violated",
    "Mole.Parser.Prog.new_template_violated",
    "Mole.Parser.Prog.computed_init_violated",
    "Mole.Parser.Prog.unnamed_method_violated",
    "Mole.Parser.Prog.import_semicolon_violated",
    "Mole.Parser.Prog.import_statement_violated",
    "Mole.Parser.Prog.import_operator_violated",
    "Mole.Parser.Prog.import_from_violated",
    "Mole.Parser.Prog.import_comma_violated",
    "Mole.Parser.Prog.import_two_violated",
    "Mole.Parser.Prog.export_async_violated"
   ],
   "note": "program_accounts_partial: an accepted source is written by the rules, with seventeen more rules for what the parser takes although no tree has it (async without function, a string as get or set, parentheses or arguments dropped, a function with an expression for a body, a method without a name, import without from or commas, a semicolon after import(), ...), each only if its tokens occur in the source. program_strict_partial: without these the rules are those of the language. program_brackets: brackets are closed, of every accepted source. program_literals_partial: the leaves. The _violated theorems: async f(a) loses f, async * f(x) loses f, \"get\" y() {} loses the string, class A { () {} }, import a \"x\", import {a b} from \"x\", import {a}, {b} from \"x\" and [import(\"a\");] are accepted, import(\"a\"); b is rejected, and others. Operator grouping is not part of the rules (C17, C18, C65; import_operator_violated: it is wrong after import()). JSX and TypeScript are not modelled."
  },
  {
   "property": "C77",
   "status": "partial",
   "theorems": [
    "Mole.Parser.Prog.program_no_panic_partial",
    "Mole.Parser.Prog.program_places_partial",
    "Mole.Parser.Prog.program_jumps_partial",
    "Mole.Parser.Prog.program_in_place_partial",
    "Mole.Parser.Prog.try_break_violated",
    "Mole.Parser.Prog.key_yield_violated",
    "Mole.Parser.Prog.async_return_violated",
    "Mole.Parser.Prog.async_star_violated",
    "Mole.Parser.Prog.async_panic_violated",
    "Mole.Parser.Prog.static_return_violated",
    "Mole.Parser.Prog.static_panic_violated",
    "Mole.Parser.Prog.import_block_violated",
    "Mole.Parser.Prog.async_export_violated"
   ],
   "note": "program_in_place_partial: the full statement for sources without a call async(...), without async * before an arrow function, without try statements, without keys in brackets at getters, setters, async methods and generators and without a return after the start of a static block. program_jumps_partial: with try statements, for all but break. program_places_partial, program_no_panic_partial: with all keys and try statements, where what is nested in the block of a try statement counts as in a switch. The _violated theorems: try { { break; } } finally {}, x = {*[yield]() {}}, async(x); return 1; and async *(x) => { yield x; } are accepted, and while (1) async(x); continue; is a panic and async(x); export var b; an error, because the scope of an async function is not left if it turns out to be a call; return in a static block is accepted in a function and a panic elsewhere; import in a block is accepted. program_no_panic_partial says that no other return is such a panic, as far as the tokens show it: there is a return somewhere after the start of a static block."
  },
  {
   "property": "C78",
   "status": "proved",
   "theorems": [
    "Mole.Parser.Prog.program_ends",
    "Mole.Parser.Prog.program_depth"
   ],
   "note": "program_ends: for every list of tokens one outcome that all parsers with calls deeper than 16 times its length come to, whatever they would do at greater depths. program_depth: the parser of C76 and C77 comes to it with this supply. For the part of the parser modelled in Parser/Prog.lean: no TypeScript and JSX (with JSX the claim is false: C79, hangs_violated). A statement about loops and calls, not about the time or stack space of each."
  },
  {
   "property": "C79",
   "status": "partial",
   "theorems": [
    "Mole.Parser.Jsx.accepted_partial",
    "Mole.Parser.Jsx.tags_match",
    "Mole.Parser.Jsx.complete_partial",
    "Mole.Parser.Jsx.ends_partial",
    "Mole.Parser.Jsx.hangs_violated",
    "Mole.Parser.Jsx.dropped_violated",
    "Mole.Parser.Jsx.missing_value_violated",
    "Mole.Parser.Jsx.box_value_violated",
    "Mole.Parser.Jsx.keyword_name_violated",
    "Mole.Parser.Jsx.comment_violated",
    "Mole.Parser.Jsx.element_value_violated"
   ],
   "note": "accepted_partial: what is accepted follows the rules, with six rules more than JSX has. tags_match: the tags of all elements match. complete_partial: what follows the rules is accepted with its tree, without keywords as names, block comments in tags and elements as values of attributes. ends_partial: reading ends, unless there is a } after a > or } in the text. The others are counterexamples: <a>}</a> makes the parser loop for ever, <a <b/> /> loses an element, <a b=c/> is two attributes, <a b={}/> is accepted, <a class=\"x\"/> and comments in tags are rejected, and so is <a b=<c/> d-e=\"f\"/>."
  },
  {
   "property": "C80",
   "status": "partial",
   "theorems": [
    "Mole.Parser.TsType.types_accepted_partial",
    "Mole.Parser.TsType.types_complete_partial",
    "Mole.Parser.TsType.types_unique",
    "Mole.Parser.TsType.types_end",
    "Mole.Parser.TsType.union_meaning",
    "Mole.Parser.TsType.types_no_crash_partial",
    "Mole.Parser.TsType.crash_violated",
    "Mole.Parser.TsType.argument_lost_violated",
    "Mole.Parser.TsType.leading_lost_violated",
    "Mole.Parser.TsType.priority_violated",
    "Mole.Parser.TsType.cond_member_violated",
    "Mole.Parser.TsType.rejected_violated",
    "Mole.Parser.TsType.accepted_violated",
    "Mole.Parser.TsType.brackets_lost_violated",
    "Mole.Parser.TsType.line_violated"
   ],
   "note": "types_accepted_partial: what is accepted follows the rules, with the rules for departures. types_complete_partial: what follows the rules is accepted with its tree; the rules leave out the types in rejected_violated. types_unique: in one way only. types_end: reading ends at a depth linear in the number of tokens. union_meaning: the tree of a union has all members in their order and groups. types_no_crash_partial: no crash without const. The others are counterexamples: import(\"m\")<const<b>> crashes, Array<A | B> is read as Array<A>, | A | B as B, A & (B) | C as A & (B | C), keyof A | B as keyof (A | B), and others."
  },
  {
   "property": "C81",
   "status": "partial",
   "theorems": [
    "Mole.Parser.Rng.node_places_partial",
    "Mole.Parser.Rng.nodes_nested_partial",
    "Mole.Parser.Rng.node_range_partial",
    "Mole.Parser.Rng.tagged_range_violated",
    "Mole.Parser.Rng.dot_name_range_violated",
    "Mole.Parser.Rng.async_star_range_violated",
    "Mole.Parser.Rng.computed_default_range_violated"
   ],
   "note": "node_places_partial: every node of an accepted program is located at its tokens, with the departures as rules of the relation. nodes_nested_partial: without these departures parts lie inside, in order and apart, and the program is the whole source. node_range_partial: and every node begins with its first token and ends with its last. The others are counterexamples. Missing: classes, modules, JSX and TypeScript are not in this model."
  },
  {
   "property": "C82",
   "status": "partial",
   "theorems": [
    "Mole.Parser.Cmts.reported_once",
    "Mole.Parser.Cmts.reported_in_order",
    "Mole.Parser.Cmts.reported_partial",
    "Mole.Parser.Cmts.program_reported_partial",
    "Mole.Parser.Cmts.statement_comments",
    "Mole.Parser.Cmts.last_comment_violated",
    "Mole.Parser.Cmts.object_comment_violated",
    "Mole.Parser.Cmts.side_violated",
    "Mole.Parser.Cmts.third_comment_violated",
    "Mole.Parser.Cmts.ts_comment_violated"
   ],
   "note": "reported_once, reported_in_order: for every sequence of operations without restoring, no comment is reported for two nodes, and those reported for one are in order. reported_partial, program_reported_partial: none is lost unless it still waits or is overwritten. statement_comments: the exact maps for statements that are names. The others are counterexamples. Missing: other statements and expressions have operations of the same kinds, but which ones is not modelled."
  },
  {
   "property": "C83",
   "status": "partial",
   "theorems": [
    "Mole.Parser.Super.accepted_uses_partial",
    "Mole.Parser.Super.legal_uses_partial",
    "Mole.Parser.Super.accepted_iff_legal_partial",
    "Mole.Parser.Super.arrow_target_rejected_partial",
    "Mole.Parser.Super.super_in_function_violated",
    "Mole.Parser.Super.super_in_key_violated",
    "Mole.Parser.Super.super_after_key_violated",
    "Mole.Parser.Super.super_in_object_key_violated",
    "Mole.Parser.Super.super_in_parens_violated",
    "Mole.Parser.Super.super_in_arrow_violated",
    "Mole.Parser.Super.super_index_violated",
    "Mole.Parser.Super.new_super_violated",
    "Mole.Parser.Super.inner_super_call_violated",
    "Mole.Parser.Super.async_super_call_violated",
    "Mole.Parser.Super.target_in_arrow_violated",
    "Mole.Parser.Super.target_in_key_violated"
   ],
   "note": "accepted_uses_partial: what is accepted obeys rules that are somewhat wider than the language. legal_uses_partial: what obeys rules that are somewhat narrower is accepted. accepted_iff_legal_partial: programs without the forms in which the code differs are accepted if and only if they are legal. The others are counterexamples. Missing: namespaces, decorators, a call of a function named async (see C77)."
  },
  {
   "property": "C84",
   "status": "partial",
   "theorems": [
    "Mole.Parser.Bind.legal_accepted_partial",
    "Mole.Parser.Bind.accepted_legal_partial",
    "Mole.Parser.Bind.in_bound_violated",
    "Mole.Parser.Bind.const_bound_violated",
    "Mole.Parser.Bind.private_function_violated",
    "Mole.Parser.Bind.private_class_violated",
    "Mole.Parser.Bind.private_parameter_violated",
    "Mole.Parser.Bind.private_catch_violated",
    "Mole.Parser.Bind.keyword_catch_violated",
    "Mole.Parser.Bind.eval_class_violated",
    "Mole.Parser.Bind.eval_import_violated",
    "Mole.Parser.Bind.eval_function_violated",
    "Mole.Parser.Bind.yield_variable_violated",
    "Mole.Parser.Bind.yield_parameter_violated",
    "Mole.Parser.Bind.yield_expression_violated",
    "Mole.Parser.Bind.await_function_violated",
    "Mole.Parser.Bind.await_class_violated",
    "Mole.Parser.Bind.await_import_violated",
    "Mole.Parser.Bind.escaped_let_violated",
    "Mole.Parser.Bind.await_inner_violated",
    "Mole.Parser.Bind.await_expression_violated"
   ],
   "note": "legal_accepted_partial: no name is refused that may be bound, apart from await in functions inside of async ones. accepted_legal_partial: a name that is accepted may be bound, apart from the cases listed in Slips. The others are counterexamples. Missing: parameters of arrow functions, TypeScript."
  },
  {
   "property": "C85",
   "status": "partial",
   "theorems": [
    "Mole.Parser.Rets.returns_partial",
    "Mole.Parser.Rets.recorded_partial",
    "Mole.Parser.Rets.stacks_partial",
    "Mole.Parser.Rets.async_violated",
    "Mole.Parser.Rets.static_violated",
    "Mole.Parser.Rets.static_panic_violated",
    "Mole.Parser.Rets.throw_violated"
   ],
   "note": "returns_partial: the full statement for return statements, for programs without a call async(...) and without a return in a static block. recorded_partial: the full statement if also no throw statement is in a function in a try block without one of its own. stacks_partial: nothing is left on the stacks. The others are counterexamples. Missing: attempts of the TypeScript parser that are taken back."
  },
  {
   "property": "C86",
   "status": "partial",
   "theorems": [
    "Mole.Parser.Pat.fine_kept_partial",
    "Mole.Parser.Pat.target_kept_partial",
    "Mole.Parser.Pat.accepted_fine_partial",
    "Mole.Parser.Pat.init_violated",
    "Mole.Parser.Pat.operand_violated",
    "Mole.Parser.Pat.nested_violated",
    "Mole.Parser.Pat.default_violated",
    "Mole.Parser.Pat.key_violated",
    "Mole.Parser.Pat.compound_violated",
    "Mole.Parser.Pat.for_violated",
    "Mole.Parser.Pat.target_violated"
   ],
   "note": "An expression whose objects are right is never refused for a default or a second `__proto__` (but for a second `__proto__` in the head of for-of and for-in, which is). Conversely what is accepted as a statement, an argument or a default has only right objects, unless what is wrong is an operand, a value of a parenthesised object, a default in a pattern, a key that is no name, or left of a compound assignment; initializers and what is behind a comma are not checked at all. Witnesses for each."
  },
  {
   "property": "C87",
   "status": "partial",
   "theorems": [
    "Mole.Parser.Mods.member_read_partial",
    "Mole.Parser.Mods.field_kept_partial",
    "Mole.Parser.Mods.method_kept_partial",
    "Mole.Parser.Mods.disorder_rejected_partial",
    "Mole.Parser.Mods.block_only_partial",
    "Mole.Parser.Mods.block_word_violated",
    "Mole.Parser.Mods.access_order_violated",
    "Mole.Parser.Mods.private_abstract_violated",
    "Mole.Parser.Mods.access_name_violated",
    "Mole.Parser.Mods.static_lost_violated",
    "Mole.Parser.Mods.readonly_lost_violated",
    "Mole.Parser.Mods.static_field_violated",
    "Mole.Parser.Mods.line_violated",
    "Mole.Parser.Mods.separator_violated",
    "Mole.Parser.Mods.method_modifier_violated",
    "Mole.Parser.Mods.method_line_violated",
    "Mole.Parser.Mods.declare_private_violated",
    "Mole.Parser.Mods.nameless_violated",
    "Mole.Parser.Mods.optional_violated"
   ],
   "note": "What is read is what is meant, or an error where one is due, unless: the name is itself one of the six words (and has an access modifier for a name, or `static` or more before it); `private` or a late access modifier is combined with `abstract`; a method with a key that is no name is `readonly` or `declare`; nothing separates a key and the next member; or the name is missing. Before an ordinary name every list of modifiers in order is kept. Witnesses for each exception."
  },
  {
   "property": "C88",
   "status": "partial",
   "theorems": [
    "Mole.Parser.Overload.accepted_iff_partial",
    "Mole.Parser.Overload.plain_accepted_partial",
    "Mole.Parser.Overload.single_accepted_partial",
    "Mole.Parser.Overload.wrong_name_rejected_partial",
    "Mole.Parser.Overload.wrong_method_rejected_partial",
    "Mole.Parser.Overload.named_no_panic_partial",
    "Mole.Parser.Overload.forgotten_violated",
    "Mole.Parser.Overload.inside_violated",
    "Mole.Parser.Overload.ambient_violated",
    "Mole.Parser.Overload.missing_violated",
    "Mole.Parser.Overload.replaced_violated",
    "Mole.Parser.Overload.panic_violated"
   ],
   "note": "Programs without signatures, and those in which all functions have one name, are accepted; a signature right before a function or method of another name with a body is always an error; and there is no panic if all are named by identifiers. In general a program is accepted if and only if every implementation has the name of the nearest signature that ends before it anywhere, which is not what the language asks: witnesses that right programs are rejected or stop the parser, and wrong ones accepted."
  },
  {
   "property": "C89",
   "status": "partial",
   "theorems": [
    "Mole.Parser.Deco.decorators_read_partial",
    "Mole.Parser.Deco.none_invented_partial",
    "Mole.Parser.Deco.class_decorated_partial",
    "Mole.Parser.Deco.undecorated_partial",
    "Mole.Parser.Deco.no_panic_partial",
    "Mole.Parser.Deco.field_panic_violated",
    "Mole.Parser.Deco.body_violated",
    "Mole.Parser.Deco.stolen_violated",
    "Mole.Parser.Deco.field_stolen_violated",
    "Mole.Parser.Deco.statement_violated",
    "Mole.Parser.Deco.end_violated",
    "Mole.Parser.Deco.lost_violated",
    "Mole.Parser.Deco.static_violated",
    "Mole.Parser.Deco.outwards_violated"
   ],
   "note": "Programs are read as meant if what is decorated contains no statement and no class, decorators are not at the end of a list, before `;` or a static block, and without TypeScript none is before a field. For every program those attached are a sublist of those written, to classes and members each at most once; class declarations get theirs; nothing is rejected without decorators. Otherwise the code does not do it: a decorated method with a statement in its body is rejected, a decorated field panics without TypeScript, classes inside steal, and decorators in wrong places are accepted."
  },
  {
   "property": "C90",
   "status": "partial",
   "theorems": [
    "Mole.Parser.Less.show_written",
    "Mole.Parser.Less.plain_read_partial",
    "Mole.Parser.Less.generic_read_partial",
    "Mole.Parser.Less.accepted_written_partial",
    "Mole.Parser.Less.javascript_read_partial",
    "Mole.Parser.Less.written_unique",
    "Mole.Parser.Less.call_preferred",
    "Mole.Parser.Less.same_tree_partial",
    "Mole.Parser.Less.no_panic_partial",
    "Mole.Parser.Less.optional_less_violated",
    "Mole.Parser.Less.unclosed_violated",
    "Mole.Parser.Less.subscript_violated",
    "Mole.Parser.Less.later_argument_violated",
    "Mole.Parser.Less.greater_violated",
    "Mole.Parser.Less.two_arguments_violated",
    "Mole.Parser.Less.compared_call_violated"
   ],
   "note": "Expressions with `<`, `+`, members and calls are read as written; so are those with type arguments, subscripts, `?.` and `>` but no operator `<`; without `?.` everything accepted is a way to write the tree, and if that has no type arguments JavaScript reads the same one; without TypeScript all are read as written; going back never finds the stack empty. Otherwise the code does not do it: `a?.b < c`, `a[i] < a[i + 1]`, `a < b > c` and `f(a < b, c > d)` are rejected, `f(a?.b < c` is accepted without `)` as `f < c`, and `a < b<c>(d)` is read as `a < b < c > (d)`."
  }
 ]
}