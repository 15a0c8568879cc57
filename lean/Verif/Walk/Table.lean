import Verif.Walk.Walker

/-! The default visitors, transcribed from ecma/walk/visitor.go (3595-3970 registers them, 1010-3590 defines
them) with the node type numbers of ecma/parser/nodetype.go.  Each row gives the node type, the type under
whose events the visitor calls the listeners, what the visitor does about scopes and the child slots it
visits.  The visitors registered for the events themselves only call the listeners of those events. -/

namespace Mole.Walk

/-! Node types, ecma/parser/nodetype.go 7-172. -/

/-- ecma/parser/nodetype.go 7-172: `N_ILLEGAL`. -/
abbrev N_ILLEGAL : Nat := 0
/-- ecma/parser/nodetype.go 7-172: `N_PROG`. -/
abbrev N_PROG : Nat := 1
/-- ecma/parser/nodetype.go 7-172: `N_STMT_BEGIN`. -/
abbrev N_STMT_BEGIN : Nat := 2
/-- ecma/parser/nodetype.go 7-172: `N_STMT_EMPTY`. -/
abbrev N_STMT_EMPTY : Nat := 3
/-- ecma/parser/nodetype.go 7-172: `N_STMT_EXPR`. -/
abbrev N_STMT_EXPR : Nat := 4
/-- ecma/parser/nodetype.go 7-172: `N_STMT_VAR_DEC`. -/
abbrev N_STMT_VAR_DEC : Nat := 5
/-- ecma/parser/nodetype.go 7-172: `N_STMT_FN`. -/
abbrev N_STMT_FN : Nat := 6
/-- ecma/parser/nodetype.go 7-172: `N_STMT_BLOCK`. -/
abbrev N_STMT_BLOCK : Nat := 7
/-- ecma/parser/nodetype.go 7-172: `N_STMT_DO_WHILE`. -/
abbrev N_STMT_DO_WHILE : Nat := 8
/-- ecma/parser/nodetype.go 7-172: `N_STMT_WHILE`. -/
abbrev N_STMT_WHILE : Nat := 9
/-- ecma/parser/nodetype.go 7-172: `N_STMT_FOR`. -/
abbrev N_STMT_FOR : Nat := 10
/-- ecma/parser/nodetype.go 7-172: `N_STMT_FOR_IN_OF`. -/
abbrev N_STMT_FOR_IN_OF : Nat := 11
/-- ecma/parser/nodetype.go 7-172: `N_STMT_IF`. -/
abbrev N_STMT_IF : Nat := 12
/-- ecma/parser/nodetype.go 7-172: `N_STMT_SWITCH`. -/
abbrev N_STMT_SWITCH : Nat := 13
/-- ecma/parser/nodetype.go 7-172: `N_STMT_BRK`. -/
abbrev N_STMT_BRK : Nat := 14
/-- ecma/parser/nodetype.go 7-172: `N_STMT_CONT`. -/
abbrev N_STMT_CONT : Nat := 15
/-- ecma/parser/nodetype.go 7-172: `N_STMT_LABEL`. -/
abbrev N_STMT_LABEL : Nat := 16
/-- ecma/parser/nodetype.go 7-172: `N_STMT_RET`. -/
abbrev N_STMT_RET : Nat := 17
/-- ecma/parser/nodetype.go 7-172: `N_STMT_THROW`. -/
abbrev N_STMT_THROW : Nat := 18
/-- ecma/parser/nodetype.go 7-172: `N_STMT_TRY`. -/
abbrev N_STMT_TRY : Nat := 19
/-- ecma/parser/nodetype.go 7-172: `N_STMT_DEBUG`. -/
abbrev N_STMT_DEBUG : Nat := 20
/-- ecma/parser/nodetype.go 7-172: `N_STMT_WITH`. -/
abbrev N_STMT_WITH : Nat := 21
/-- ecma/parser/nodetype.go 7-172: `N_STMT_CLASS`. -/
abbrev N_STMT_CLASS : Nat := 22
/-- ecma/parser/nodetype.go 7-172: `N_STMT_IMPORT`. -/
abbrev N_STMT_IMPORT : Nat := 23
/-- ecma/parser/nodetype.go 7-172: `N_STMT_EXPORT`. -/
abbrev N_STMT_EXPORT : Nat := 24
/-- ecma/parser/nodetype.go 7-172: `N_STMT_END`. -/
abbrev N_STMT_END : Nat := 25
/-- ecma/parser/nodetype.go 7-172: `N_EXPR_BEGIN`. -/
abbrev N_EXPR_BEGIN : Nat := 26
/-- ecma/parser/nodetype.go 7-172: `N_LIT_BEGIN`. -/
abbrev N_LIT_BEGIN : Nat := 27
/-- ecma/parser/nodetype.go 7-172: `N_LIT_NULL`. -/
abbrev N_LIT_NULL : Nat := 28
/-- ecma/parser/nodetype.go 7-172: `N_LIT_BOOL`. -/
abbrev N_LIT_BOOL : Nat := 29
/-- ecma/parser/nodetype.go 7-172: `N_LIT_NUM`. -/
abbrev N_LIT_NUM : Nat := 30
/-- ecma/parser/nodetype.go 7-172: `N_LIT_STR`. -/
abbrev N_LIT_STR : Nat := 31
/-- ecma/parser/nodetype.go 7-172: `N_LIT_ARR`. -/
abbrev N_LIT_ARR : Nat := 32
/-- ecma/parser/nodetype.go 7-172: `N_LIT_OBJ`. -/
abbrev N_LIT_OBJ : Nat := 33
/-- ecma/parser/nodetype.go 7-172: `N_LIT_REGEXP`. -/
abbrev N_LIT_REGEXP : Nat := 34
/-- ecma/parser/nodetype.go 7-172: `N_LIT_END`. -/
abbrev N_LIT_END : Nat := 35
/-- ecma/parser/nodetype.go 7-172: `N_EXPR_NEW`. -/
abbrev N_EXPR_NEW : Nat := 36
/-- ecma/parser/nodetype.go 7-172: `N_EXPR_MEMBER`. -/
abbrev N_EXPR_MEMBER : Nat := 37
/-- ecma/parser/nodetype.go 7-172: `N_EXPR_CALL`. -/
abbrev N_EXPR_CALL : Nat := 38
/-- ecma/parser/nodetype.go 7-172: `N_EXPR_BIN`. -/
abbrev N_EXPR_BIN : Nat := 39
/-- ecma/parser/nodetype.go 7-172: `N_EXPR_UNARY`. -/
abbrev N_EXPR_UNARY : Nat := 40
/-- ecma/parser/nodetype.go 7-172: `N_EXPR_UPDATE`. -/
abbrev N_EXPR_UPDATE : Nat := 41
/-- ecma/parser/nodetype.go 7-172: `N_EXPR_COND`. -/
abbrev N_EXPR_COND : Nat := 42
/-- ecma/parser/nodetype.go 7-172: `N_EXPR_ASSIGN`. -/
abbrev N_EXPR_ASSIGN : Nat := 43
/-- ecma/parser/nodetype.go 7-172: `N_EXPR_FN`. -/
abbrev N_EXPR_FN : Nat := 44
/-- ecma/parser/nodetype.go 7-172: `N_EXPR_THIS`. -/
abbrev N_EXPR_THIS : Nat := 45
/-- ecma/parser/nodetype.go 7-172: `N_EXPR_PAREN`. -/
abbrev N_EXPR_PAREN : Nat := 46
/-- ecma/parser/nodetype.go 7-172: `N_EXPR_ARROW`. -/
abbrev N_EXPR_ARROW : Nat := 47
/-- ecma/parser/nodetype.go 7-172: `N_EXPR_SEQ`. -/
abbrev N_EXPR_SEQ : Nat := 48
/-- ecma/parser/nodetype.go 7-172: `N_EXPR_CLASS`. -/
abbrev N_EXPR_CLASS : Nat := 49
/-- ecma/parser/nodetype.go 7-172: `N_EXPR_TPL`. -/
abbrev N_EXPR_TPL : Nat := 50
/-- ecma/parser/nodetype.go 7-172: `N_EXPR_YIELD`. -/
abbrev N_EXPR_YIELD : Nat := 51
/-- ecma/parser/nodetype.go 7-172: `N_EXPR_CHAIN`. -/
abbrev N_EXPR_CHAIN : Nat := 52
/-- ecma/parser/nodetype.go 7-172: `N_JSX_ELEM`. -/
abbrev N_JSX_ELEM : Nat := 53
/-- ecma/parser/nodetype.go 7-172: `N_NAME`. -/
abbrev N_NAME : Nat := 54
/-- ecma/parser/nodetype.go 7-172: `N_IMPORT_CALL`. -/
abbrev N_IMPORT_CALL : Nat := 55
/-- ecma/parser/nodetype.go 7-172: `N_META_PROP`. -/
abbrev N_META_PROP : Nat := 56
/-- ecma/parser/nodetype.go 7-172: `N_DECORATOR`. -/
abbrev N_DECORATOR : Nat := 57
/-- ecma/parser/nodetype.go 7-172: `N_SPREAD`. -/
abbrev N_SPREAD : Nat := 58
/-- ecma/parser/nodetype.go 7-172: `N_EXPR_END`. -/
abbrev N_EXPR_END : Nat := 59
/-- ecma/parser/nodetype.go 7-172: `N_VAR_DEC`. -/
abbrev N_VAR_DEC : Nat := 60
/-- ecma/parser/nodetype.go 7-172: `N_PAT_REST`. -/
abbrev N_PAT_REST : Nat := 61
/-- ecma/parser/nodetype.go 7-172: `N_PAT_ARRAY`. -/
abbrev N_PAT_ARRAY : Nat := 62
/-- ecma/parser/nodetype.go 7-172: `N_PAT_ASSIGN`. -/
abbrev N_PAT_ASSIGN : Nat := 63
/-- ecma/parser/nodetype.go 7-172: `N_PAT_OBJ`. -/
abbrev N_PAT_OBJ : Nat := 64
/-- ecma/parser/nodetype.go 7-172: `N_PROP`. -/
abbrev N_PROP : Nat := 65
/-- ecma/parser/nodetype.go 7-172: `N_SWITCH_CASE`. -/
abbrev N_SWITCH_CASE : Nat := 66
/-- ecma/parser/nodetype.go 7-172: `N_CATCH`. -/
abbrev N_CATCH : Nat := 67
/-- ecma/parser/nodetype.go 7-172: `N_CLASS_BODY`. -/
abbrev N_CLASS_BODY : Nat := 68
/-- ecma/parser/nodetype.go 7-172: `N_STATIC_BLOCK`. -/
abbrev N_STATIC_BLOCK : Nat := 69
/-- ecma/parser/nodetype.go 7-172: `N_METHOD`. -/
abbrev N_METHOD : Nat := 70
/-- ecma/parser/nodetype.go 7-172: `N_FIELD`. -/
abbrev N_FIELD : Nat := 71
/-- ecma/parser/nodetype.go 7-172: `N_SUPER`. -/
abbrev N_SUPER : Nat := 72
/-- ecma/parser/nodetype.go 7-172: `N_IMPORT_SPEC`. -/
abbrev N_IMPORT_SPEC : Nat := 73
/-- ecma/parser/nodetype.go 7-172: `N_EXPORT_SPEC`. -/
abbrev N_EXPORT_SPEC : Nat := 74
/-- ecma/parser/nodetype.go 7-172: `N_JSX_BEGIN`. -/
abbrev N_JSX_BEGIN : Nat := 75
/-- ecma/parser/nodetype.go 7-172: `N_JSX_ID`. -/
abbrev N_JSX_ID : Nat := 76
/-- ecma/parser/nodetype.go 7-172: `N_JSX_MEMBER`. -/
abbrev N_JSX_MEMBER : Nat := 77
/-- ecma/parser/nodetype.go 7-172: `N_JSX_NS`. -/
abbrev N_JSX_NS : Nat := 78
/-- ecma/parser/nodetype.go 7-172: `N_JSX_ATTR_SPREAD`. -/
abbrev N_JSX_ATTR_SPREAD : Nat := 79
/-- ecma/parser/nodetype.go 7-172: `N_JSX_CHILD_SPREAD`. -/
abbrev N_JSX_CHILD_SPREAD : Nat := 80
/-- ecma/parser/nodetype.go 7-172: `N_JSX_OPEN`. -/
abbrev N_JSX_OPEN : Nat := 81
/-- ecma/parser/nodetype.go 7-172: `N_JSX_CLOSE`. -/
abbrev N_JSX_CLOSE : Nat := 82
/-- ecma/parser/nodetype.go 7-172: `N_JSX_EMPTY`. -/
abbrev N_JSX_EMPTY : Nat := 83
/-- ecma/parser/nodetype.go 7-172: `N_JSX_EXPR_SPAN`. -/
abbrev N_JSX_EXPR_SPAN : Nat := 84
/-- ecma/parser/nodetype.go 7-172: `N_JSX_TXT`. -/
abbrev N_JSX_TXT : Nat := 85
/-- ecma/parser/nodetype.go 7-172: `N_JSX_ATTR`. -/
abbrev N_JSX_ATTR : Nat := 86
/-- ecma/parser/nodetype.go 7-172: `N_JSX_END`. -/
abbrev N_JSX_END : Nat := 87
/-- ecma/parser/nodetype.go 7-172: `N_TS_BEGIN`. -/
abbrev N_TS_BEGIN : Nat := 88
/-- ecma/parser/nodetype.go 7-172: `N_TS_TYP_ANNOT`. -/
abbrev N_TS_TYP_ANNOT : Nat := 89
/-- ecma/parser/nodetype.go 7-172: `N_TS_ANY`. -/
abbrev N_TS_ANY : Nat := 90
/-- ecma/parser/nodetype.go 7-172: `N_TS_NUM`. -/
abbrev N_TS_NUM : Nat := 91
/-- ecma/parser/nodetype.go 7-172: `N_TS_BOOL`. -/
abbrev N_TS_BOOL : Nat := 92
/-- ecma/parser/nodetype.go 7-172: `N_TS_STR`. -/
abbrev N_TS_STR : Nat := 93
/-- ecma/parser/nodetype.go 7-172: `N_TS_SYM`. -/
abbrev N_TS_SYM : Nat := 94
/-- ecma/parser/nodetype.go 7-172: `N_TS_OBJ`. -/
abbrev N_TS_OBJ : Nat := 95
/-- ecma/parser/nodetype.go 7-172: `N_TS_VOID`. -/
abbrev N_TS_VOID : Nat := 96
/-- ecma/parser/nodetype.go 7-172: `N_TS_NEVER`. -/
abbrev N_TS_NEVER : Nat := 97
/-- ecma/parser/nodetype.go 7-172: `N_TS_UNKNOWN`. -/
abbrev N_TS_UNKNOWN : Nat := 98
/-- ecma/parser/nodetype.go 7-172: `N_TS_UNDEF`. -/
abbrev N_TS_UNDEF : Nat := 99
/-- ecma/parser/nodetype.go 7-172: `N_TS_BIGINT`. -/
abbrev N_TS_BIGINT : Nat := 100
/-- ecma/parser/nodetype.go 7-172: `N_TS_INTRINSIC`. -/
abbrev N_TS_INTRINSIC : Nat := 101
/-- ecma/parser/nodetype.go 7-172: `N_TS_NULL`. -/
abbrev N_TS_NULL : Nat := 102
/-- ecma/parser/nodetype.go 7-172: `N_TS_LIT`. -/
abbrev N_TS_LIT : Nat := 103
/-- ecma/parser/nodetype.go 7-172: `N_TS_REF`. -/
abbrev N_TS_REF : Nat := 104
/-- ecma/parser/nodetype.go 7-172: `N_TS_LIT_OBJ`. -/
abbrev N_TS_LIT_OBJ : Nat := 105
/-- ecma/parser/nodetype.go 7-172: `N_TS_ARR`. -/
abbrev N_TS_ARR : Nat := 106
/-- ecma/parser/nodetype.go 7-172: `N_TS_IDX_ACCESS`. -/
abbrev N_TS_IDX_ACCESS : Nat := 107
/-- ecma/parser/nodetype.go 7-172: `N_TS_TUPLE`. -/
abbrev N_TS_TUPLE : Nat := 108
/-- ecma/parser/nodetype.go 7-172: `N_TS_REST`. -/
abbrev N_TS_REST : Nat := 109
/-- ecma/parser/nodetype.go 7-172: `N_TS_TUPLE_NAMED_MEMBER`. -/
abbrev N_TS_TUPLE_NAMED_MEMBER : Nat := 110
/-- ecma/parser/nodetype.go 7-172: `N_TS_OPT`. -/
abbrev N_TS_OPT : Nat := 111
/-- ecma/parser/nodetype.go 7-172: `N_TS_TYP_QUERY`. -/
abbrev N_TS_TYP_QUERY : Nat := 112
/-- ecma/parser/nodetype.go 7-172: `N_TS_COND`. -/
abbrev N_TS_COND : Nat := 113
/-- ecma/parser/nodetype.go 7-172: `N_TS_TYP_OP`. -/
abbrev N_TS_TYP_OP : Nat := 114
/-- ecma/parser/nodetype.go 7-172: `N_TS_MAPPED`. -/
abbrev N_TS_MAPPED : Nat := 115
/-- ecma/parser/nodetype.go 7-172: `N_TS_TYP_INFER`. -/
abbrev N_TS_TYP_INFER : Nat := 116
/-- ecma/parser/nodetype.go 7-172: `N_TS_PAREN`. -/
abbrev N_TS_PAREN : Nat := 117
/-- ecma/parser/nodetype.go 7-172: `N_TS_THIS`. -/
abbrev N_TS_THIS : Nat := 118
/-- ecma/parser/nodetype.go 7-172: `N_TS_NS_NAME`. -/
abbrev N_TS_NS_NAME : Nat := 119
/-- ecma/parser/nodetype.go 7-172: `N_TS_PARAM`. -/
abbrev N_TS_PARAM : Nat := 120
/-- ecma/parser/nodetype.go 7-172: `N_TS_PARAM_DEC`. -/
abbrev N_TS_PARAM_DEC : Nat := 121
/-- ecma/parser/nodetype.go 7-172: `N_TS_PARAM_INST`. -/
abbrev N_TS_PARAM_INST : Nat := 122
/-- ecma/parser/nodetype.go 7-172: `N_TS_PROP`. -/
abbrev N_TS_PROP : Nat := 123
/-- ecma/parser/nodetype.go 7-172: `N_TS_CALL_SIG`. -/
abbrev N_TS_CALL_SIG : Nat := 124
/-- ecma/parser/nodetype.go 7-172: `N_TS_NEW_SIG`. -/
abbrev N_TS_NEW_SIG : Nat := 125
/-- ecma/parser/nodetype.go 7-172: `N_TS_IDX_SIG`. -/
abbrev N_TS_IDX_SIG : Nat := 126
/-- ecma/parser/nodetype.go 7-172: `N_TS_FN_TYP`. -/
abbrev N_TS_FN_TYP : Nat := 127
/-- ecma/parser/nodetype.go 7-172: `N_TS_NEW`. -/
abbrev N_TS_NEW : Nat := 128
/-- ecma/parser/nodetype.go 7-172: `N_TS_UNION_TYP`. -/
abbrev N_TS_UNION_TYP : Nat := 129
/-- ecma/parser/nodetype.go 7-172: `N_TS_INTERSECT_TYP`. -/
abbrev N_TS_INTERSECT_TYP : Nat := 130
/-- ecma/parser/nodetype.go 7-172: `N_TS_ROUGH_PARAM`. -/
abbrev N_TS_ROUGH_PARAM : Nat := 131
/-- ecma/parser/nodetype.go 7-172: `N_TS_TYP_ASSERT`. -/
abbrev N_TS_TYP_ASSERT : Nat := 132
/-- ecma/parser/nodetype.go 7-172: `N_TS_TYP_DEC`. -/
abbrev N_TS_TYP_DEC : Nat := 133
/-- ecma/parser/nodetype.go 7-172: `N_TS_INTERFACE`. -/
abbrev N_TS_INTERFACE : Nat := 134
/-- ecma/parser/nodetype.go 7-172: `N_TS_INTERFACE_BODY`. -/
abbrev N_TS_INTERFACE_BODY : Nat := 135
/-- ecma/parser/nodetype.go 7-172: `N_TS_ENUM`. -/
abbrev N_TS_ENUM : Nat := 136
/-- ecma/parser/nodetype.go 7-172: `N_TS_ENUM_MEMBER`. -/
abbrev N_TS_ENUM_MEMBER : Nat := 137
/-- ecma/parser/nodetype.go 7-172: `N_TS_IMPORT_ALIAS`. -/
abbrev N_TS_IMPORT_ALIAS : Nat := 138
/-- ecma/parser/nodetype.go 7-172: `N_TS_NAMESPACE`. -/
abbrev N_TS_NAMESPACE : Nat := 139
/-- ecma/parser/nodetype.go 7-172: `N_TS_IMPORT_REQUIRE`. -/
abbrev N_TS_IMPORT_REQUIRE : Nat := 140
/-- ecma/parser/nodetype.go 7-172: `N_TS_IMPORT_TYP`. -/
abbrev N_TS_IMPORT_TYP : Nat := 141
/-- ecma/parser/nodetype.go 7-172: `N_TS_EXPORT_ASSIGN`. -/
abbrev N_TS_EXPORT_ASSIGN : Nat := 142
/-- ecma/parser/nodetype.go 7-172: `N_TS_DEC_VAR_DEC`. -/
abbrev N_TS_DEC_VAR_DEC : Nat := 143
/-- ecma/parser/nodetype.go 7-172: `N_TS_DEC_FN`. -/
abbrev N_TS_DEC_FN : Nat := 144
/-- ecma/parser/nodetype.go 7-172: `N_TS_DEC_ENUM`. -/
abbrev N_TS_DEC_ENUM : Nat := 145
/-- ecma/parser/nodetype.go 7-172: `N_TS_DEC_CLASS`. -/
abbrev N_TS_DEC_CLASS : Nat := 146
/-- ecma/parser/nodetype.go 7-172: `N_TS_DEC_NS`. -/
abbrev N_TS_DEC_NS : Nat := 147
/-- ecma/parser/nodetype.go 7-172: `N_TS_DEC_MODULE`. -/
abbrev N_TS_DEC_MODULE : Nat := 148
/-- ecma/parser/nodetype.go 7-172: `N_TS_DEC_GLOBAL`. -/
abbrev N_TS_DEC_GLOBAL : Nat := 149
/-- ecma/parser/nodetype.go 7-172: `N_TS_DEC_INTERFACE`. -/
abbrev N_TS_DEC_INTERFACE : Nat := 150
/-- ecma/parser/nodetype.go 7-172: `N_TS_DEC_TYP_DEC`. -/
abbrev N_TS_DEC_TYP_DEC : Nat := 151
/-- ecma/parser/nodetype.go 7-172: `N_TS_TYP_PREDICATE`. -/
abbrev N_TS_TYP_PREDICATE : Nat := 152
/-- ecma/parser/nodetype.go 7-172: `N_TS_NO_NULL`. -/
abbrev N_TS_NO_NULL : Nat := 153
/-- ecma/parser/nodetype.go 7-172: `N_TS_END`. -/
abbrev N_TS_END : Nat := 154
/-- ecma/parser/nodetype.go 7-172: `N_NODE_DEF_END`. -/
abbrev N_NODE_DEF_END : Nat := 155

/-- ecma/walk/visitor.go 3595-3970, 1010-3590: the default visitors, one row per node type. -/
def rows : List Row := [
  -- visitor.go 1200: VisitProg
  ⟨N_PROG, N_PROG, .inner .never, [⟨"Body", true⟩]⟩,
  -- visitor.go 2359: VisitExprStmt
  ⟨N_STMT_EXPR, N_STMT_EXPR, .inner .never, [⟨"Expr", false⟩]⟩,
  -- visitor.go 3462: VisitVarDecStmt
  ⟨N_STMT_VAR_DEC, N_STMT_VAR_DEC, .inner .never, [⟨"DecList", true⟩]⟩,
  -- visitor.go 1428: VisitFnDec
  ⟨N_STMT_FN, N_EXPR_FN, .inner .afterFirst, [⟨"Id", false⟩, ⟨"Params", true⟩, ⟨"Body", false⟩]⟩,
  -- visitor.go 3384: VisitBlockStmt
  ⟨N_STMT_BLOCK, N_STMT_BLOCK, .inner .before, [⟨"Body", true⟩]⟩,
  -- visitor.go 1400: VisitDoWhileStmt
  ⟨N_STMT_DO_WHILE, N_STMT_DO_WHILE, .inner .before, [⟨"Body", false⟩, ⟨"Test", false⟩]⟩,
  -- visitor.go 2379: VisitWhileStmt
  ⟨N_STMT_WHILE, N_STMT_WHILE, .inner .before, [⟨"Test", false⟩, ⟨"Body", false⟩]⟩,
  -- visitor.go 2487: VisitForStmt
  ⟨N_STMT_FOR, N_STMT_FOR, .inner .before, [⟨"Init", false⟩, ⟨"Test", false⟩, ⟨"Update", false⟩, ⟨"Body", false⟩]⟩,
  -- visitor.go 2071: VisitForInOfStmt
  ⟨N_STMT_FOR_IN_OF, N_STMT_FOR_IN_OF, .inner .never, [⟨"Left", false⟩, ⟨"Right", false⟩, ⟨"Body", false⟩]⟩,
  -- visitor.go 3507: VisitIfStmt
  ⟨N_STMT_IF, N_STMT_IF, .inner .never, [⟨"Test", false⟩, ⟨"Cons", false⟩, ⟨"Alt", false⟩]⟩,
  -- visitor.go 2950: VisitSwitchStmt
  ⟨N_STMT_SWITCH, N_STMT_SWITCH, .inner .before, [⟨"Test", false⟩, ⟨"Cases", true⟩]⟩,
  -- visitor.go 3407: VisitBrkStmt
  ⟨N_STMT_BRK, N_STMT_BRK, .inner .never, [⟨"Label", false⟩]⟩,
  -- visitor.go 2685: VisitContStmt
  ⟨N_STMT_CONT, N_STMT_CONT, .inner .never, [⟨"Label", false⟩]⟩,
  -- visitor.go 2800: VisitLabelStmt
  ⟨N_STMT_LABEL, N_STMT_LABEL, .inner .never, [⟨"Label", false⟩, ⟨"Body", false⟩]⟩,
  -- visitor.go 1280: VisitRetStmt
  ⟨N_STMT_RET, N_STMT_RET, .inner .never, [⟨"Arg", false⟩]⟩,
  -- visitor.go 2905: VisitThrowStmt
  ⟨N_STMT_THROW, N_STMT_THROW, .inner .never, [⟨"Arg", false⟩]⟩,
  -- visitor.go 3537: VisitTryStmt
  ⟨N_STMT_TRY, N_STMT_TRY, .inner .never, [⟨"Try", false⟩, ⟨"Catch", false⟩, ⟨"Fin", false⟩]⟩,
  -- visitor.go 1300: VisitDebugStmt
  ⟨N_STMT_DEBUG, N_STMT_DEBUG, .atom, []⟩,
  -- visitor.go 3567: VisitWithStmt
  ⟨N_STMT_WITH, N_STMT_WITH, .inner .never, [⟨"Expr", false⟩, ⟨"Body", false⟩]⟩,
  -- visitor.go 1611: VisitClassDec
  ⟨N_STMT_CLASS, N_EXPR_CLASS, .inner .never, [⟨"Id", false⟩, ⟨"Super", false⟩, ⟨"Body", false⟩]⟩,
  -- visitor.go 3286: VisitImportDec
  ⟨N_STMT_IMPORT, N_STMT_IMPORT, .inner .never, [⟨"Specs", true⟩, ⟨"Src", false⟩]⟩,
  -- visitor.go 3427: VisitExportDec
  ⟨N_STMT_EXPORT, N_STMT_EXPORT, .inner .never, [⟨"Dec", false⟩, ⟨"Specs", true⟩, ⟨"Src", false⟩]⟩,
  -- visitor.go 2925: VisitNullLit
  ⟨N_LIT_NULL, N_LIT_NULL, .atom, []⟩,
  -- visitor.go 2630: VisitBoolLit
  ⟨N_LIT_BOOL, N_LIT_BOOL, .atom, []⟩,
  -- visitor.go 1926: VisitNumLit
  ⟨N_LIT_NUM, N_LIT_NUM, .atom, []⟩,
  -- visitor.go 3063: VisitStrLit
  ⟨N_LIT_STR, N_LIT_STR, .atom, []⟩,
  -- visitor.go 1681: VisitArrLit
  ⟨N_LIT_ARR, N_LIT_ARR, .inner .never, [⟨"Elems", true⟩]⟩,
  -- visitor.go 2930: VisitObjLit
  ⟨N_LIT_OBJ, N_LIT_OBJ, .inner .never, [⟨"Props", true⟩]⟩,
  -- visitor.go 3457: VisitRegLit
  ⟨N_LIT_REGEXP, N_LIT_REGEXP, .atom, []⟩,
  -- visitor.go 2525: VisitNewExpr
  ⟨N_EXPR_NEW, N_EXPR_NEW, .inner .never, [⟨"Callee", false⟩, ⟨"Args", true⟩]⟩,
  -- visitor.go 1826: VisitMemberExpr
  ⟨N_EXPR_MEMBER, N_EXPR_MEMBER, .inner .never, [⟨"Obj", false⟩, ⟨"Prop", false⟩]⟩,
  -- visitor.go 1851: VisitCallExpr
  ⟨N_EXPR_CALL, N_EXPR_CALL, .inner .never, [⟨"Callee", false⟩, ⟨"Args", true⟩]⟩,
  -- visitor.go 2274: VisitBinExpr
  ⟨N_EXPR_BIN, N_EXPR_BIN, .inner .never, [⟨"Lhs", false⟩, ⟨"Rhs", false⟩]⟩,
  -- visitor.go 1701: VisitUnaryExpr
  ⟨N_EXPR_UNARY, N_EXPR_UNARY, .inner .never, [⟨"Arg", false⟩]⟩,
  -- visitor.go 2101: VisitUpdateExpr
  ⟨N_EXPR_UPDATE, N_EXPR_UPDATE, .inner .never, [⟨"Arg", false⟩]⟩,
  -- visitor.go 1556: VisitCondExpr
  ⟨N_EXPR_COND, N_EXPR_COND, .inner .never, [⟨"Test", false⟩, ⟨"Cons", false⟩, ⟨"Alt", false⟩]⟩,
  -- visitor.go 1586: VisitAssignExpr
  ⟨N_EXPR_ASSIGN, N_EXPR_ASSIGN, .inner .never, [⟨"Lhs", false⟩, ⟨"Rhs", false⟩]⟩,
  -- visitor.go 1428: VisitFnDec
  ⟨N_EXPR_FN, N_EXPR_FN, .inner .afterFirst, [⟨"Id", false⟩, ⟨"Params", true⟩, ⟨"Body", false⟩]⟩,
  -- visitor.go 3213: VisitThisExpr
  ⟨N_EXPR_THIS, N_EXPR_THIS, .atom, []⟩,
  -- visitor.go 3218: VisitParenExpr
  ⟨N_EXPR_PAREN, N_EXPR_PAREN, .inner .never, [⟨"Expr", false⟩]⟩,
  -- visitor.go 3238: VisitArrowFn
  ⟨N_EXPR_ARROW, N_EXPR_ARROW, .inner .before, [⟨"Params", true⟩, ⟨"Body", false⟩]⟩,
  -- visitor.go 2299: VisitSeqExpr
  ⟨N_EXPR_SEQ, N_EXPR_SEQ, .inner .never, [⟨"Elems", true⟩]⟩,
  -- visitor.go 1611: VisitClassDec
  ⟨N_EXPR_CLASS, N_EXPR_CLASS, .inner .never, [⟨"Id", false⟩, ⟨"Super", false⟩, ⟨"Body", false⟩]⟩,
  -- visitor.go 2001: VisitTplExpr
  ⟨N_EXPR_TPL, N_EXPR_TPL, .inner .never, [⟨"Tag", false⟩, ⟨"Elems", true⟩]⟩,
  -- visitor.go 2825: VisitYieldExpr
  ⟨N_EXPR_YIELD, N_EXPR_YIELD, .inner .never, [⟨"Arg", false⟩]⟩,
  -- visitor.go 1466: VisitChainExpr
  ⟨N_EXPR_CHAIN, N_EXPR_CHAIN, .inner .never, [⟨"Expr", false⟩]⟩,
  -- visitor.go 2550: VisitJsxElem
  ⟨N_JSX_ELEM, N_JSX_ELEM, .inner .never, [⟨"Open", false⟩, ⟨"Children", true⟩, ⟨"Close", false⟩]⟩,
  -- visitor.go 1461: VisitIdent
  ⟨N_NAME, N_NAME, .atom, []⟩,
  -- visitor.go 2161: VisitImportCall
  ⟨N_IMPORT_CALL, N_IMPORT_CALL, .inner .never, [⟨"Src", false⟩]⟩,
  -- visitor.go 2705: VisitMetaProp
  ⟨N_META_PROP, N_META_PROP, .inner .never, [⟨"Meta", false⟩, ⟨"Prop", false⟩]⟩,
  -- visitor.go 2234: VisitDecorator
  ⟨N_DECORATOR, N_DECORATOR, .inner .never, [⟨"Expr", false⟩]⟩,
  -- visitor.go 3068: VisitSpread
  ⟨N_SPREAD, N_SPREAD, .inner .never, [⟨"Arg", false⟩]⟩,
  -- visitor.go 1325: VisitVarDec
  ⟨N_VAR_DEC, N_VAR_DEC, .inner .never, [⟨"Id", false⟩, ⟨"Init", false⟩]⟩,
  -- visitor.go 1486: VisitRestPat
  ⟨N_PAT_REST, N_PAT_REST, .inner .never, [⟨"Arg", false⟩]⟩,
  -- visitor.go 2319: VisitArrPat
  ⟨N_PAT_ARRAY, N_PAT_ARRAY, .inner .never, [⟨"Elems", true⟩]⟩,
  -- visitor.go 1931: VisitAssignPat
  ⟨N_PAT_ASSIGN, N_PAT_ASSIGN, .inner .never, [⟨"Lhs", false⟩, ⟨"Rhs", false⟩]⟩,
  -- visitor.go 1305: VisitObjPat
  ⟨N_PAT_OBJ, N_PAT_OBJ, .inner .never, [⟨"Props", true⟩]⟩,
  -- visitor.go 2181: VisitProp
  ⟨N_PROP, N_PROP, .inner .never, [⟨"Key", false⟩, ⟨"Val", false⟩]⟩,
  -- visitor.go 1721: VisitSwitchCase
  ⟨N_SWITCH_CASE, N_SWITCH_CASE, .inner .never, [⟨"Test", false⟩, ⟨"Cons", true⟩]⟩,
  -- visitor.go 2206: VisitCatch
  ⟨N_CATCH, N_CATCH, .inner .before, [⟨"Param", false⟩, ⟨"Body", false⟩]⟩,
  -- visitor.go 3336: VisitClassBody
  ⟨N_CLASS_BODY, N_CLASS_BODY, .inner .before, [⟨"Elems", true⟩]⟩,
  -- visitor.go 1956: VisitStaticBlock
  ⟨N_STATIC_BLOCK, N_STATIC_BLOCK, .inner .never, [⟨"Body", true⟩]⟩,
  -- visitor.go 1976: VisitMethod
  ⟨N_METHOD, N_METHOD, .inner .never, [⟨"Key", false⟩, ⟨"Val", false⟩]⟩,
  -- visitor.go 2635: VisitField
  ⟨N_FIELD, N_FIELD, .inner .never, [⟨"Key", false⟩, ⟨"Val", false⟩]⟩,
  -- visitor.go 1110: VisitSuper
  ⟨N_SUPER, N_SUPER, .atom, []⟩,
  -- visitor.go 2407: VisitImportSpec
  ⟨N_IMPORT_SPEC, N_IMPORT_SPEC, .inner .never, [⟨"Local", false⟩, ⟨"Id", false⟩]⟩,
  -- visitor.go 1220: VisitExportSpec
  ⟨N_EXPORT_SPEC, N_EXPORT_SPEC, .inner .never, [⟨"Local", false⟩, ⟨"Id", false⟩]⟩,
  -- visitor.go 2026: VisitJsxIdent
  ⟨N_JSX_ID, N_JSX_ID, .atom, []⟩,
  -- visitor.go 1115: VisitJsxMember
  ⟨N_JSX_MEMBER, N_JSX_MEMBER, .inner .never, [⟨"Obj", false⟩, ⟨"Prop", false⟩]⟩,
  -- visitor.go 1771: VisitJsxNsName
  ⟨N_JSX_NS, N_JSX_NS, .atom, []⟩,
  -- visitor.go 2141: VisitJsxSpreadAttr
  ⟨N_JSX_ATTR_SPREAD, N_JSX_ATTR_SPREAD, .inner .never, [⟨"Arg", false⟩]⟩,
  -- visitor.go 1641: VisitJsxSpreadChild
  ⟨N_JSX_CHILD_SPREAD, N_JSX_CHILD_SPREAD, .inner .never, [⟨"Expr", false⟩]⟩,
  -- visitor.go 1506: VisitJsxOpen
  ⟨N_JSX_OPEN, N_JSX_OPEN, .inner .never, [⟨"Name", false⟩, ⟨"Attrs", true⟩]⟩,
  -- visitor.go 1350: VisitJsxClose
  ⟨N_JSX_CLOSE, N_JSX_CLOSE, .inner .never, [⟨"Name", false⟩]⟩,
  -- visitor.go 1250: VisitJsxEmpty
  ⟨N_JSX_EMPTY, N_JSX_EMPTY, .atom, []⟩,
  -- visitor.go 3088: VisitJsxExprSpan
  ⟨N_JSX_EXPR_SPAN, N_JSX_EXPR_SPAN, .inner .never, [⟨"Expr", false⟩]⟩,
  -- visitor.go 3311: VisitJsxText
  ⟨N_JSX_TXT, N_JSX_TXT, .atom, []⟩,
  -- visitor.go 2432: VisitJsxAttr
  ⟨N_JSX_ATTR, N_JSX_ATTR, .inner .never, [⟨"Name", false⟩, ⟨"Val", false⟩]⟩,
  -- visitor.go 2121: VisitTsTypAnnot
  ⟨N_TS_TYP_ANNOT, N_TS_TYP_ANNOT, .inner .never, [⟨"TsTyp", false⟩]⟩,
  -- visitor.go 1245: VisitTsPredef
  ⟨N_TS_ANY, N_TS_NULL, .atom, []⟩,
  -- visitor.go 1245: VisitTsPredef
  ⟨N_TS_NUM, N_TS_NULL, .atom, []⟩,
  -- visitor.go 1245: VisitTsPredef
  ⟨N_TS_BOOL, N_TS_NULL, .atom, []⟩,
  -- visitor.go 1245: VisitTsPredef
  ⟨N_TS_STR, N_TS_NULL, .atom, []⟩,
  -- visitor.go 1245: VisitTsPredef
  ⟨N_TS_SYM, N_TS_NULL, .atom, []⟩,
  -- visitor.go 1245: VisitTsPredef
  ⟨N_TS_OBJ, N_TS_NULL, .atom, []⟩,
  -- visitor.go 1245: VisitTsPredef
  ⟨N_TS_VOID, N_TS_NULL, .atom, []⟩,
  -- visitor.go 1245: VisitTsPredef
  ⟨N_TS_NEVER, N_TS_NULL, .atom, []⟩,
  -- visitor.go 1245: VisitTsPredef
  ⟨N_TS_UNKNOWN, N_TS_NULL, .atom, []⟩,
  -- visitor.go 1245: VisitTsPredef
  ⟨N_TS_UNDEF, N_TS_NULL, .atom, []⟩,
  -- visitor.go 1245: VisitTsPredef
  ⟨N_TS_BIGINT, N_TS_NULL, .atom, []⟩,
  -- visitor.go 1245: VisitTsPredef
  ⟨N_TS_INTRINSIC, N_TS_NULL, .atom, []⟩,
  -- visitor.go 1245: VisitTsPredef
  ⟨N_TS_NULL, N_TS_NULL, .atom, []⟩,
  -- visitor.go 1661: VisitTsLit
  ⟨N_TS_LIT, N_TS_LIT, .inner .never, [⟨"Lit", false⟩]⟩,
  -- visitor.go 2845: VisitTsRef
  ⟨N_TS_REF, N_TS_REF, .inner .never, [⟨"Name", false⟩, ⟨"Args", true⟩]⟩,
  -- visitor.go 1160: VisitTsObj
  ⟨N_TS_LIT_OBJ, N_TS_LIT_OBJ, .inner .never, [⟨"Props", true⟩]⟩,
  -- visitor.go 1180: VisitTsArr
  ⟨N_TS_ARR, N_TS_ARR, .inner .never, [⟨"Arg", false⟩]⟩,
  -- visitor.go 2660: VisitTsIdxAccess
  ⟨N_TS_IDX_ACCESS, N_TS_IDX_ACCESS, .inner .never, [⟨"Obj", false⟩, ⟨"Idx", false⟩]⟩,
  -- visitor.go 1140: VisitTsTuple
  ⟨N_TS_TUPLE, N_TS_TUPLE, .inner .never, [⟨"Args", true⟩]⟩,
  -- visitor.go 2031: VisitTsRest
  ⟨N_TS_REST, N_TS_REST, .inner .never, [⟨"Arg", false⟩]⟩,
  -- visitor.go 1776: VisitTsTupleNamedMember
  ⟨N_TS_TUPLE_NAMED_MEMBER, N_TS_TUPLE_NAMED_MEMBER, .inner .never, [⟨"Label", false⟩, ⟨"Val", false⟩]⟩,
  -- visitor.go 3108: VisitTsOpt
  ⟨N_TS_OPT, N_TS_OPT, .inner .never, [⟨"Arg", false⟩]⟩,
  -- visitor.go 2730: VisitTsTypQuery
  ⟨N_TS_TYP_QUERY, N_TS_TYP_QUERY, .inner .never, [⟨"Arg", false⟩]⟩,
  -- visitor.go 3128: VisitTsCondType
  ⟨N_TS_COND, N_TS_COND, .inner .never, [⟨"CheckTyp", false⟩, ⟨"ExtTyp", false⟩, ⟨"TrueTyp", false⟩, ⟨"FalseTyp", false⟩]⟩,
  -- visitor.go 2051: VisitTsTypOp
  ⟨N_TS_TYP_OP, N_TS_TYP_OP, .inner .never, [⟨"Arg", false⟩]⟩,
  -- visitor.go 2580: VisitTsMapped
  ⟨N_TS_MAPPED, N_TS_MAPPED, .inner .never, [⟨"Name", false⟩, ⟨"Key", false⟩, ⟨"Val", false⟩]⟩,
  -- visitor.go 2254: VisitTsTypInfer
  ⟨N_TS_TYP_INFER, N_TS_TYP_INFER, .inner .never, [⟨"Arg", false⟩]⟩,
  -- visitor.go 3043: VisitTsParen
  ⟨N_TS_PAREN, N_TS_PAREN, .inner .never, [⟨"Arg", false⟩]⟩,
  -- visitor.go 2978: VisitTsThis
  ⟨N_TS_THIS, N_TS_THIS, .atom, []⟩,
  -- visitor.go 1010: VisitTsNsName
  ⟨N_TS_NS_NAME, N_TS_NS_NAME, .inner .never, [⟨"Lhs", false⟩, ⟨"Rhs", false⟩]⟩,
  -- visitor.go 3163: VisitTsParam
  ⟨N_TS_PARAM, N_TS_PARAM, .inner .never, [⟨"Name", false⟩, ⟨"Cons", false⟩, ⟨"Default", false⟩]⟩,
  -- visitor.go 2750: VisitTsParamsDec
  ⟨N_TS_PARAM_DEC, N_TS_PARAM_DEC, .inner .never, [⟨"Params", true⟩]⟩,
  -- visitor.go 2610: VisitTsParamsInst
  ⟨N_TS_PARAM_INST, N_TS_PARAM_INST, .inner .never, [⟨"Params", true⟩]⟩,
  -- visitor.go 3482: VisitTsProp
  ⟨N_TS_PROP, N_TS_PROP, .inner .never, [⟨"Key", false⟩, ⟨"Val", false⟩]⟩,
  -- visitor.go 2988: VisitTsCallSig
  ⟨N_TS_CALL_SIG, N_TS_CALL_SIG, .inner .never, [⟨"TypParams", false⟩, ⟨"Params", true⟩, ⟨"RetTyp", false⟩]⟩,
  -- visitor.go 2457: VisitTsNewSig
  ⟨N_TS_NEW_SIG, N_TS_NEW, .inner .never, [⟨"TypParams", false⟩, ⟨"Params", true⟩, ⟨"RetTyp", false⟩]⟩,
  -- visitor.go 1035: VisitTsIdxSig
  ⟨N_TS_IDX_SIG, N_TS_IDX_SIG, .inner .never, [⟨"Key", false⟩, ⟨"KeyType", false⟩, ⟨"Val", false⟩]⟩,
  -- visitor.go 1370: VisitTsFnTyp
  ⟨N_TS_FN_TYP, N_TS_FN_TYP, .inner .never, [⟨"TypParams", false⟩, ⟨"Params", true⟩, ⟨"RetTyp", false⟩]⟩,
  -- visitor.go 2457: VisitTsNewSig
  ⟨N_TS_NEW, N_TS_NEW, .inner .never, [⟨"TypParams", false⟩, ⟨"Params", true⟩, ⟨"RetTyp", false⟩]⟩,
  -- visitor.go 3193: VisitTsUnionTyp
  ⟨N_TS_UNION_TYP, N_TS_UNION_TYP, .inner .never, [⟨"Elems", true⟩]⟩,
  -- visitor.go 3316: VisitTsIntersectTyp
  ⟨N_TS_INTERSECT_TYP, N_TS_INTERSECT_TYP, .inner .never, [⟨"Elems", true⟩]⟩,
  -- visitor.go 2983: VisitTsRoughParam
  ⟨N_TS_ROUGH_PARAM, N_TS_ROUGH_PARAM, .atom, []⟩,
  -- visitor.go 3359: VisitTsTypAssert
  ⟨N_TS_TYP_ASSERT, N_TS_TYP_ASSERT, .inner .never, [⟨"Typ", false⟩, ⟨"Expr", false⟩]⟩,
  -- visitor.go 1876: VisitTsTypDec
  ⟨N_TS_TYP_DEC, N_TS_TYP_DEC, .inner .never, [⟨"Id", false⟩, ⟨"TypParams", false⟩]⟩,
  -- visitor.go 2870: VisitTsInterface
  ⟨N_TS_INTERFACE, N_TS_INTERFACE, .inner .never, [⟨"Id", false⟩, ⟨"TypParams", false⟩, ⟨"Supers", true⟩, ⟨"Body", false⟩]⟩,
  -- visitor.go 1065: VisitTsInterfaceBody
  ⟨N_TS_INTERFACE_BODY, N_TS_INTERFACE_BODY, .inner .never, [⟨"Body", true⟩]⟩,
  -- visitor.go 1801: VisitTsEnum
  ⟨N_TS_ENUM, N_TS_ENUM, .inner .never, [⟨"Id", false⟩, ⟨"Members", true⟩]⟩,
  -- visitor.go 3018: VisitTsEnumMember
  ⟨N_TS_ENUM_MEMBER, N_TS_ENUM_MEMBER, .inner .never, [⟨"Key", false⟩, ⟨"Val", false⟩]⟩,
  -- visitor.go 1531: VisitTsImportAlias
  ⟨N_TS_IMPORT_ALIAS, N_TS_IMPORT_ALIAS, .inner .never, [⟨"Name", false⟩, ⟨"Val", false⟩]⟩,
  -- visitor.go 1255: VisitTsNS
  ⟨N_TS_NAMESPACE, N_TS_NAMESPACE, .inner .never, [⟨"Id", false⟩, ⟨"Body", false⟩]⟩,
  -- visitor.go 1746: VisitTsImportRequire
  ⟨N_TS_IMPORT_REQUIRE, N_TS_IMPORT_REQUIRE, .inner .never, [⟨"Name", false⟩, ⟨"Expr", false⟩]⟩,
  -- visitor.go 2770: VisitTsImportType
  ⟨N_TS_IMPORT_TYP, N_TS_IMPORT_TYP, .inner .never, [⟨"Arg", false⟩, ⟨"Qualifier", false⟩, ⟨"TypArg", false⟩]⟩,
  -- visitor.go 3266: VisitTsExportAssign
  ⟨N_TS_EXPORT_ASSIGN, N_TS_EXPORT_ASSIGN, .inner .never, [⟨"Expr", false⟩]⟩,
  -- visitor.go 1085: VisitTsDec
  ⟨N_TS_DEC_VAR_DEC, N_TS_DEC_TYP_DEC, .inner .never, [⟨"Name", false⟩, ⟨"Inner", false⟩]⟩,
  -- visitor.go 1085: VisitTsDec
  ⟨N_TS_DEC_FN, N_TS_DEC_TYP_DEC, .inner .never, [⟨"Name", false⟩, ⟨"Inner", false⟩]⟩,
  -- visitor.go 1085: VisitTsDec
  ⟨N_TS_DEC_ENUM, N_TS_DEC_TYP_DEC, .inner .never, [⟨"Name", false⟩, ⟨"Inner", false⟩]⟩,
  -- visitor.go 1085: VisitTsDec
  ⟨N_TS_DEC_CLASS, N_TS_DEC_TYP_DEC, .inner .never, [⟨"Name", false⟩, ⟨"Inner", false⟩]⟩,
  -- visitor.go 1085: VisitTsDec
  ⟨N_TS_DEC_NS, N_TS_DEC_TYP_DEC, .inner .never, [⟨"Name", false⟩, ⟨"Inner", false⟩]⟩,
  -- visitor.go 1085: VisitTsDec
  ⟨N_TS_DEC_MODULE, N_TS_DEC_TYP_DEC, .inner .never, [⟨"Name", false⟩, ⟨"Inner", false⟩]⟩,
  -- visitor.go 1085: VisitTsDec
  ⟨N_TS_DEC_GLOBAL, N_TS_DEC_TYP_DEC, .inner .never, [⟨"Name", false⟩, ⟨"Inner", false⟩]⟩,
  -- visitor.go 1085: VisitTsDec
  ⟨N_TS_DEC_INTERFACE, N_TS_DEC_TYP_DEC, .inner .never, [⟨"Name", false⟩, ⟨"Inner", false⟩]⟩,
  -- visitor.go 1085: VisitTsDec
  ⟨N_TS_DEC_TYP_DEC, N_TS_DEC_TYP_DEC, .inner .never, [⟨"Name", false⟩, ⟨"Inner", false⟩]⟩,
  -- visitor.go 1901: VisitTsTypPredicate
  ⟨N_TS_TYP_PREDICATE, N_TS_TYP_PREDICATE, .inner .never, [⟨"Name", false⟩, ⟨"Typ", false⟩]⟩,
  -- visitor.go 2339: VisitTsNoNull
  ⟨N_TS_NO_NULL, N_TS_NO_NULL, .inner .never, [⟨"Arg", false⟩]⟩]

/-- ecma/walk/visitor.go 3592-3970 (DefaultVisitors): the visitor registered for a node type. -/
def visitors (typ : Nat) : Option Row := rows.find? (fun r => r.typ == typ)

end Mole.Walk
