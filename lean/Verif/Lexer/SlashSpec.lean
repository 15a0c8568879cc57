import Verif.Lexer.Slash
/-! # Where the language has divisions and where regular expressions

Of a program the specification keeps what may come next: a new operand, an operator, the name of a member, a statement, and so on.
Brackets are not matched, so that more sequences of tokens are covered than there are programs.  Class bodies, object methods,
imports, exports, TypeScript and JSX are left out. -/

namespace Mole.Lexer.Slash

/-- What comes next. -/
inductive W where
  | operand   -- an expression, or what begins one
  | operator  -- one has ended
  | member    -- after a dot
  | key       -- the colon after a word which is the key of a property, or after `default`
  | stmt      -- a statement
  | head      -- the parenthesis of a statement like `if`
  | fn        -- the rest of the head of a function
  | done      -- the end of a statement
deriving DecidableEq

/-- A whole operand. -/
def atom : T → Bool
  | .name | .num | .string | .regexp | .null | .tru | .fals | .this | .super | .tplHead => true
  | _ => false

/-- Before an operand.  `...` comes before expressions as well; `yield` is a name outside of strict code. -/
def before : T → Bool
  | .not | .bitNot | .add | .sub | .typeOf | .void | .delete | .inc | .dec | .await | .yield | .new | .dotTri | .name => true
  | _ => false

/-- Between two operands.  `in` is a name to the lexer. -/
def between : T → Bool
  | .nullish | .lt | .gt | .lte | .gte | .eq | .ne | .eqS | .neS | .lsh | .rsh | .rshU | .bitOr | .bitXor | .bitAnd | .or | .and
  | .instanceOf | .add | .sub | .mul | .div | .mod | .pow | .name => true
  | .assign | .assignAdd | .assignSub | .assignNullish | .assignOr | .assignAnd | .assignBitOr | .assignBitXor | .assignBitAnd
  | .assignBitLsh | .assignBitRsh | .assignBitRshU | .assignMul | .assignDiv | .assignMod | .assignPow => true
  | .comma | .hook | .colon | .arrow => true
  | _ => false

/-- Reserved words, which can be names of members and keys. -/
def word : T → Bool
  | .null | .tru | .fals | .break | .case | .catch_ | .class_ | .continue | .debugger | .default | .do_ | .else_ | .enum | .export_
  | .extends_ | .finally_ | .for_ | .func | .if_ | .import_ | .new | .return_ | .super | .switch | .this | .throw_ | .try_ | .var
  | .while_ | .with_ | .typeOf | .void | .delete | .instanceOf => true
  | _ => false

/-- Is it written with a slash? -/
def slashed : T → Bool
  | .regexp | .div | .assignDiv => true
  | _ => false

/-- One token more. -/
inductive Step : W → T → W → Prop where
  -- expressions
  | atom {w t} : w = .operand ∨ w = .stmt → atom t = true → Step w t .operator
  | before {w t} : w = .operand ∨ w = .stmt → before t = true → Step w t .operand
  | opening {w t} : w = .operand ∨ w = .stmt → t = .parenL ∨ t = .bracketL ∨ t = .braceL ∨ t = .tplHead → Step w t .operand
  | after {t} : t = .inc ∨ t = .dec → Step .operator t .operator
  | between {t} : between t = true → Step .operator t .operand
  | again {t} : t = .parenL ∨ t = .bracketL ∨ t = .tplHead ∨ t = .tplSpan → Step .operator t .operand
  | tagged : Step .operator .tplHead .operator
  | closing {w t} : w = .operand ∨ w = .operator → t = .parenR ∨ t = .bracketR ∨ t = .braceR → Step w t .operator
  | hole : Step .operand .comma .operand
  | tail : Step .operator .tplTail .operator
  | dot {t} : t = .dot ∨ t = .optChain → Step .operator t .member
  | member {t} : t = .name ∨ t = .namePvt ∨ word t = true → Step .member t .operator
  | optional {t} : t = .parenL ∨ t = .bracketL → Step .member t .operand
  | key {t} : word t = true → Step .operand t .key
  | colon : Step .key .colon .operand
  -- functions
  | fn {w} : w = .operand ∨ w = .stmt → Step w .func .fn
  | star : Step .fn .mul .fn
  | fnName : Step .fn .name .head
  | fnParams : Step .fn .parenL .operand
  | body {w} : w = .operand ∨ w = .operator → Step w .braceL .stmt
  | bodyEnd {w} : w = .stmt ∨ w = .operator → Step w .braceR .operator
  -- statements
  | semi {w w'} : w ≠ .member ∧ w ≠ .key ∧ w ≠ .head ∧ w ≠ .fn → w' = .stmt ∨ w' = .operand → Step w .semi w'
  | block : Step .stmt .braceL .stmt
  | blockEnd {w} : w = .stmt ∨ w = .operator ∨ w = .done → Step w .braceR .stmt
  | head {t} : t = .if_ ∨ t = .while_ ∨ t = .for_ ∨ t = .with_ ∨ t = .switch ∨ t = .catch_ → Step .stmt t .head
  | headOpen : Step .head .parenL .operand
  | headEnd : Step .operator .parenR .stmt
  | arg {t} : t = .return_ ∨ t = .throw_ ∨ t = .case ∨ t = .var ∨ t = .const → Step .stmt t .operand
  | sub {t} : t = .do_ ∨ t = .else_ ∨ t = .try_ ∨ t = .finally_ → Step .stmt t .stmt
  | default : Step .stmt .default .key
  | label {w} : w = .operator ∨ w = .key → Step w .colon .stmt
  | jump {t} : t = .break ∨ t = .continue ∨ t = .debugger → Step .stmt t .done
  | forOf {t} : t = .of ∨ t = .in_ → Step .operator t .operand
  -- a statement may also end before a token that cannot go on with it
  | newline {w t w'} : w = .operator ∨ w = .done → slashed t = false → Step .stmt t w' → Step w t w'

/-- How it is written. -/
def raw : T → Sym
  | .regexp | .div => .slash
  | .assignDiv => .slashEq
  | t => .tok t

/-- The slashes which are not read as they should: after which tokens, and what should come. -/
def Misread (t : T) (w : W) : Prop :=
  w = .operator ∧ (t = .null ∨ t = .tru ∨ t = .fals ∨ t = .tplHead ∨ t = .tplTail ∨ t = .case ∨ t = .default ∨ t = .do_ ∨
    t = .else_ ∨ t = .extends_ ∨ t = .new ∨ t = .return_ ∨ t = .throw_ ∨ t = .instanceOf) ∨
  w = .operand ∧ (t = .typeOf ∨ t = .void ∨ t = .delete ∨ t = .await ∨ t = .dotTri ∨ t = .inc ∨ t = .dec ∨ t = .tplSpan ∨
    t = .name ∨ t = .var ∨ t = .const)

/-- A program from `w` on, after the token `p`; each token with whether the parser asks for it as the beginning of a statement.  For a
slash this must be so exactly where a statement begins; no slash is misread. -/
inductive Program : T → W → List (T × Bool) → Prop where
  | nil (p w) : Program p w []
  | cons {p w t w' b l} : Step w t w' → (slashed t = true → (b = true ↔ w = .stmt) ∧ ¬ Misread p w) → Program t w' l →
    Program p w ((t, b) :: l)

/-- A sequence of tokens of the language from `w` on. -/
inductive Sentence : W → List T → Prop where
  | nil (w) : Sentence w []
  | cons {w t w' l} : Step w t w' → Sentence w' l → Sentence w (t :: l)

/-- What the calls of the parser read, with so many tokens waiting; for each token read, whether the call says that a statement begins.
The flag is set while the token last taken is not the last one read: then none may be read further ahead. -/
inductive Calls : Nat → Bool → List Op → List Bool → Prop where
  | nil (n s) : Calls n s [] []
  | peek0 {ops l} : Calls 1 false ops l → Calls 0 false (.peek :: ops) (false :: l)
  | peek {n s ops l} : Calls (n + 1) s ops l → Calls (n + 1) s (.peek :: ops) l
  | stmt0 {ops l} : Calls 1 false ops l → Calls 0 false (.peekStmtBegin :: ops) (true :: l)
  | stmt {n s ops l} : Calls (n + 1) s ops l → Calls (n + 1) s (.peekStmtBegin :: ops) l
  | grow {n ops l} : Calls (n + 1) false ops l → Calls n false (.peekGrow :: ops) (false :: l)
  | two0 {ops l} : Calls 2 false ops l → Calls 0 false (.peek2nd :: ops) (false :: false :: l)
  | two1 {ops l} : Calls 2 false ops l → Calls 1 false (.peek2nd :: ops) (false :: l)
  | two {n s ops l} : Calls (n + 2) s ops l → Calls (n + 2) s (.peek2nd :: ops) l
  | next0 {ops l} : Calls 0 false ops l → Calls 0 false (.next :: ops) (false :: l)
  | next1 {s ops l} : Calls 0 false ops l → Calls 1 s (.next :: ops) l
  | next {n s ops l} : Calls (n + 1) true ops l → Calls (n + 2) s (.next :: ops) l

end Mole.Lexer.Slash
