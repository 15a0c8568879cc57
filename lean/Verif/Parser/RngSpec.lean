import Verif.Parser.Rng

/-! # Where nodes should be

A node is located at the tokens `i`, ..., `j - 1` if it ends where the last of them ends, if it begins where the first of them begins
(or where the node it is the continuation of begins), if its parts are located in order and apart from each other among these tokens, and
if the first and the last of these tokens are what a node of this kind begins and ends with: a part of it or a certain token. -/

namespace Mole.Parser.Rng

open Prog (K Kw Cw Pu isTplHead isUnary isIncDec isYield decKind)

/-- A node of this kind may begin with its first part. -/
def lk : Kd → Bool
  | .prop | .init | .method | .arrow | .seq | .starBin | .update | .bin | .cond | .assign | .index | .call | .chain | .assignPat
  | .exprStmt | .dec | .label => true
  | _ => false

/-- A node of this kind may begin with this token. -/
def lt : Kd → K → Bool
  | .arr, k | .arrPat, k => k = .pu .brackL
  | .obj, k | .objPat, k | .block, k => k = .pu .braceL
  | .prop, k | .init, k => k = .pu .brackL
  | .method, k => k = .pu .brackL || k = .bin .mul || k = .name "async" || Prog.text k = "get" || Prog.text k = "set"
  | .value, k | .paren, k => k = .pu .parenL
  | .spread, k | .rest, k => k = .pu .dots
  | .fn, k => k = .kw .func || k = .name "async"
  | .arrow, k => k = .pu .parenL || k = .name "async"
  | .yield_, k => isYield k
  | .unary, k => isUnary k || k = .cw .await
  | .update, k => isIncDec k
  | .assign, k => k = .pu .parenL
  | .assignPat, k => k = .pu .parenL || k = .pu .brackL
  | .new_, k | .meta_, k => k = .kw .new_
  | .varDec, k => k = .kw .var || (decKind k).isSome
  | .empty, k => k = .pu .semi
  | .ifS, k => k = .kw .if_
  | .whileS, k => k = .kw .while_
  | .doS, k => k = .kw .do_
  | .forS, k | .forIn, k => k = .kw .for_
  | .ret, k => k = .kw .return_
  | .throwS, k => k = .kw .throw_
  | .brk, k => k = .kw .break_
  | .cont, k => k = .kw .continue_
  | .switchS, k => k = .kw .switch
  | .case, k => k = .kw .case_ || k = .kw .default
  | .tryS, k => k = .kw .try_
  | .catchS, k => k = .kw .catch_
  | .withS, k => k = .kw .with_
  | .debug, k => k = .kw .debugger
  | _, _ => false

/-- A node of this kind may end with its last part. -/
def rk : Kd → Bool
  | .prop | .init | .method | .value | .spread | .fn | .arrow | .seq | .starBin | .yield_ | .unary | .update | .bin | .cond | .assign
  | .new_ | .meta_ | .chain | .assignPat | .rest | .exprStmt | .varDec | .dec | .ifS | .whileS | .forS | .forIn | .ret | .throwS | .brk
  | .cont | .label | .case | .tryS | .catchS | .withS => true
  | _ => false

/-- A node of this kind may end with this token. -/
def rt : Kd → K → Bool
  | .arr, k | .arrPat, k | .index, k => k = .pu .brackR
  | .obj, k | .objPat, k | .block, k | .switchS, k => k = .pu .braceR
  | .paren, k | .call, k | .new_, k | .starBin, k | .rest, k => k = .pu .parenR
  | .prop, k => k = .pu .parenR || k = .pu .brackR
  | .yield_, k => isYield k
  | .update, k => isIncDec k
  | .exprStmt, k | .varDec, k | .throwS, k | .empty, k => k = .pu .semi
  | .ret, k => k = .pu .semi || k = .kw .return_
  | .doS, k => k = .pu .semi || k = .pu .parenR
  | .brk, k => k = .pu .semi || k = .kw .break_
  | .cont, k => k = .pu .semi || k = .kw .continue_
  | .debug, k => k = .pu .semi || k = .kw .debugger
  | .case, k => k = .pu .colon
  | _, _ => false

/-- The nodes that are one token. -/
def single : Kd → Bool
  | .name | .lit | .this | .super => true
  | _ => false

/-- The nodes that continue another one. -/
def spine : Kd → Bool
  | .member | .index | .call | .tagged | .chain => true
  | _ => false

/-- `x` is where the node begins, or where one of those begins that it continues. -/
inductive Lft : Nd → Nat → Prop where
  | self (n : Nd) : Lft n n.lo
  | step {k : Kd} {lo hi x : Nat} {n : Nd} {l : List Nd} : spine k = true → Lft n x → Lft (.node k lo hi (n :: l)) x

/-- The tokens of a template that end it, and those an expression follows. -/
def tplEnds : K → Bool
  | .tplPlain _ | .tplTail _ => true
  | _ => false

def tplOpens : K → Bool
  | .tplHead _ | .tplSpan _ => true
  | _ => false

variable (t : List T)

mutual
/-- The node is located at the tokens from `i` on and before `j`. -/
inductive Loc : Nd → Nat → Nat → Prop where
  /-- a token -/
  | leaf {k : Kd} {i : Nat} : single k = true → i < t.length →
      Loc (.node k (tokAt t i).lo (tokAt t i).hi []) i (i + 1)
  /-- a node of which `a` and `b` are where its first part begins and its last part ends -/
  | node {k : Kd} {lo hi : Nat} {kids : List Nd} {i j a b : Nat} : i < j → j ≤ t.length → Locs kids i a b → b ≤ j →
      hi = (tokAt t (j - 1)).hi →
      (lo = (tokAt t i).lo ∨ lk k = true ∧ a = i ∧ ∃ n l, kids = n :: l ∧ (lo = n.lo ∨ k = .call ∧ Lft n lo)) →
      (lk k = true ∧ a = i ∧ kids ≠ [] ∨ lt k (tokAt t i).k = true) →
      (rk k = true ∧ b = j ∧ kids ≠ [] ∨ rt k (tokAt t (j - 1)).k = true) →
      Loc (.node k lo hi kids) i j
  /-- a name after a dot begins where the token does, or where the dot ends -/
  | member {lo hi nlo nhi : Nat} {obj : Nd} {i m : Nat} : Loc obj i m → m + 1 < t.length →
      (tokAt t m).k = .pu .dot ∨ (tokAt t m).k = .pu .optChain →
      lo = obj.lo → hi = (tokAt t (m + 1)).hi →
      nlo = (tokAt t (m + 1)).lo ∨ nlo = (tokAt t m).hi ∧ (tokAt t m).k = .pu .dot → nhi = (tokAt t (m + 1)).hi →
      Loc (.node .member lo hi [obj, .node .dotName nlo nhi []]) i (m + 2)
  /-- a template -/
  | tpl {lo hi : Nat} {l : List Nd} {i j : Nat} : Parts l i j → isTplHead (tokAt t i).k = true →
      lo = (tokAt t i).lo → hi = (tokAt t (j - 1)).hi →
      Loc (.node .tpl lo hi l) i j
  /-- a template with a tag begins where the template does -/
  | tagged {lo hi : Nat} {tag : Nd} {l : List Nd} {i e m j : Nat} : Loc tag i e → e ≤ m → Parts l m j →
      isTplHead (tokAt t m).k = true → lo = (tokAt t m).lo → hi = (tokAt t (j - 1)).hi →
      Loc (.node .tagged lo hi (tag :: l)) i j
  /-- the sequence in `async * (a, b)` begins where `async` does -/
  | starSeq {lo hi : Nat} {kids : List Nd} {f i j b : Nat} : f < i → (tokAt t f).k = .name "async" → lo = (tokAt t f).lo →
      i < j → j ≤ t.length → Locs kids i i b → kids ≠ [] → b ≤ j → (tokAt t (j - 1)).k = .pu .parenR →
      hi = (tokAt t (j - 1)).hi →
      Loc (.node .starSeq lo hi kids) i j

/-- The nodes are located one after the other from `i` on, the first begins at `a` and the last ends at `b`. -/
inductive Locs : List Nd → Nat → Nat → Nat → Prop where
  | nil {i a b : Nat} : i ≤ b → Locs [] i a b
  | one {n : Nd} {i a b : Nat} : i ≤ a → Loc n a b → Locs [n] i a b
  | cons {n n' : Nd} {l : List Nd} {i a a' b m : Nat} : i ≤ a → Loc n a m → Locs (n' :: l) m a' b → Locs (n :: n' :: l) i a b

/-- The parts of a template, text and expressions by turns. -/
inductive Parts : List Nd → Nat → Nat → Prop where
  | last {i : Nat} : i < t.length → tplEnds (tokAt t i).k = true →
      Parts [.node .text (tokAt t i).slo (tokAt t i).shi []] i (i + 1)
  | more {e : Nd} {l : List Nd} {i m j : Nat} : i < t.length → tplOpens (tokAt t i).k = true → Loc e (i + 1) m → Parts l m j →
      Parts (.node .text (tokAt t i).slo (tokAt t i).shi [] :: e :: l) i j
end

end Mole.Parser.Rng
