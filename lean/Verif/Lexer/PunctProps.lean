import Verif.Lexer.Punct
import Verif.Span.Utf8
/-!
# C12: maximal munch
-/
namespace Mole.Lexer

/-- Where the language or the mode forbids a punctuator that would match: `?.` before a digit,
`>>…` inside TypeScript type arguments, `<<` in TypeScript when no white space follows (it may
open two type-argument lists), and `/` where a comment or a regular expression starts. -/
def Allowed (F : PunctCfg) : Punct → List Nat → Prop
  | .optChain, rest => ∀ c, rest.head? = some c → ¬ ('0'.toNat ≤ c ∧ c ≤ '9'.toNat)
  | .rsh, _ | .rshU, _ | .assignRsh, _ | .assignRshU, _ => F.tsTypArg = false
  | .lsh, rest => F.ts = true ∨ F.tsTypArg = true → ∃ c, rest.head? = some c ∧ Span.White c
  | .assignLsh, _ => F.ts = false ∧ F.tsTypArg = false
  | .div, rest => F.regexpAhead = false ∧ rest.head? ≠ some '/'.toNat ∧ rest.head? ≠ some '*'.toNat
  | .assignDiv, _ => F.regexpAhead = false
  | _, _ => True

/-- The text starts with the punctuator, leaving `rest`. -/
def Matches (F : PunctCfg) (p : Punct) (s rest : List Nat) : Prop :=
  s = p.text ++ rest ∧ Allowed F p rest

/-- The features that bring a punctuator are on. -/
def Enabled (F : PunctCfg) : Punct → Prop
  | .dotTri => F.spread = true ∧ F.bindingRest = true
  | .optChain => F.optExpr = true
  | .nullish => F.nullish = true
  | .assignNullish | .assignAnd | .assignOr => F.logicAssign = true
  | .pow | .assignPow => F.pow = true
  | .«at» => F.decorator = true
  | _ => True

/-- `p` is the longest punctuator the text starts with. -/
def Longest (F : PunctCfg) (p : Punct) (s rest : List Nat) : Prop :=
  Matches F p s rest ∧ ∀ p' rest', Matches F p' s rest' → p'.text.length ≤ p.text.length

theorem head_123 (p : Punct) (t : List Nat) (r : List Nat) (h : 123 :: t = p.text ++ r) : p = .braceL := by
  cases p <;> simp [Punct.text] at h ⊢

theorem head_125 (p : Punct) (t : List Nat) (r : List Nat) (h : 125 :: t = p.text ++ r) : p = .braceR := by
  cases p <;> simp [Punct.text] at h ⊢

theorem head_40 (p : Punct) (t : List Nat) (r : List Nat) (h : 40 :: t = p.text ++ r) : p = .parenL := by
  cases p <;> simp [Punct.text] at h ⊢

theorem head_41 (p : Punct) (t : List Nat) (r : List Nat) (h : 41 :: t = p.text ++ r) : p = .parenR := by
  cases p <;> simp [Punct.text] at h ⊢

theorem head_91 (p : Punct) (t : List Nat) (r : List Nat) (h : 91 :: t = p.text ++ r) : p = .bracketL := by
  cases p <;> simp [Punct.text] at h ⊢

theorem head_93 (p : Punct) (t : List Nat) (r : List Nat) (h : 93 :: t = p.text ++ r) : p = .bracketR := by
  cases p <;> simp [Punct.text] at h ⊢

theorem head_59 (p : Punct) (t : List Nat) (r : List Nat) (h : 59 :: t = p.text ++ r) : p = .semi := by
  cases p <;> simp [Punct.text] at h ⊢

theorem head_44 (p : Punct) (t : List Nat) (r : List Nat) (h : 44 :: t = p.text ++ r) : p = .comma := by
  cases p <;> simp [Punct.text] at h ⊢

theorem head_58 (p : Punct) (t : List Nat) (r : List Nat) (h : 58 :: t = p.text ++ r) : p = .colon := by
  cases p <;> simp [Punct.text] at h ⊢

theorem head_46 (p : Punct) (t : List Nat) (r : List Nat) (h : 46 :: t = p.text ++ r) : p = .dot ∨ p = .dotTri := by
  cases p <;> simp [Punct.text] at h ⊢

theorem head_63 (p : Punct) (t : List Nat) (r : List Nat) (h : 63 :: t = p.text ++ r) : p = .hook ∨ p = .optChain ∨ p = .nullish ∨ p = .assignNullish := by
  cases p <;> simp [Punct.text] at h ⊢

theorem head_43 (p : Punct) (t : List Nat) (r : List Nat) (h : 43 :: t = p.text ++ r) : p = .add ∨ p = .inc ∨ p = .assignAdd := by
  cases p <;> simp [Punct.text] at h ⊢

theorem head_45 (p : Punct) (t : List Nat) (r : List Nat) (h : 45 :: t = p.text ++ r) : p = .sub ∨ p = .dec ∨ p = .assignSub := by
  cases p <;> simp [Punct.text] at h ⊢

theorem head_61 (p : Punct) (t : List Nat) (r : List Nat) (h : 61 :: t = p.text ++ r) : p = .assign ∨ p = .arrow ∨ p = .eq ∨ p = .eqS := by
  cases p <;> simp [Punct.text] at h ⊢

theorem head_60 (p : Punct) (t : List Nat) (r : List Nat) (h : 60 :: t = p.text ++ r) : p = .lt ∨ p = .lte ∨ p = .lsh ∨ p = .assignLsh := by
  cases p <;> simp [Punct.text] at h ⊢

theorem head_62 (p : Punct) (t : List Nat) (r : List Nat) (h : 62 :: t = p.text ++ r) : p = .gt ∨ p = .gte ∨ p = .rsh ∨ p = .rshU ∨ p = .assignRsh ∨ p = .assignRshU := by
  cases p <;> simp [Punct.text] at h ⊢

theorem head_42 (p : Punct) (t : List Nat) (r : List Nat) (h : 42 :: t = p.text ++ r) : p = .mul ∨ p = .assignMul ∨ p = .pow ∨ p = .assignPow := by
  cases p <;> simp [Punct.text] at h ⊢

theorem head_124 (p : Punct) (t : List Nat) (r : List Nat) (h : 124 :: t = p.text ++ r) : p = .bitOr ∨ p = .assignBitOr ∨ p = .or ∨ p = .assignOr := by
  cases p <;> simp [Punct.text] at h ⊢

theorem head_38 (p : Punct) (t : List Nat) (r : List Nat) (h : 38 :: t = p.text ++ r) : p = .bitAnd ∨ p = .assignBitAnd ∨ p = .and ∨ p = .assignAnd := by
  cases p <;> simp [Punct.text] at h ⊢

theorem head_37 (p : Punct) (t : List Nat) (r : List Nat) (h : 37 :: t = p.text ++ r) : p = .mod ∨ p = .assignMod := by
  cases p <;> simp [Punct.text] at h ⊢

theorem head_33 (p : Punct) (t : List Nat) (r : List Nat) (h : 33 :: t = p.text ++ r) : p = .not ∨ p = .ne ∨ p = .neS := by
  cases p <;> simp [Punct.text] at h ⊢

theorem head_126 (p : Punct) (t : List Nat) (r : List Nat) (h : 126 :: t = p.text ++ r) : p = .bitNot := by
  cases p <;> simp [Punct.text] at h ⊢

theorem head_94 (p : Punct) (t : List Nat) (r : List Nat) (h : 94 :: t = p.text ++ r) : p = .bitXor ∨ p = .assignBitXor := by
  cases p <;> simp [Punct.text] at h ⊢

theorem head_47 (p : Punct) (t : List Nat) (r : List Nat) (h : 47 :: t = p.text ++ r) : p = .div ∨ p = .assignDiv := by
  cases p <;> simp [Punct.text] at h ⊢

theorem head_64 (p : Punct) (t : List Nat) (r : List Nat) (h : 64 :: t = p.text ++ r) : p = .«at» := by
  cases p <;> simp [Punct.text] at h ⊢

set_option linter.unusedSimpArgs false

/-- What the switch has to return for a text starting with `c`. -/
def Good (F : PunctCfg) (c : Nat) (t : List Nat) : PunctRes → Prop
  | .punct p rest => Longest F p (c :: t) rest
  | .slash => ∀ p rest, ¬ Matches F p (c :: t) rest
  | .illegal => ∀ p rest, Longest F p (c :: t) rest → ¬ Enabled F p

theorem ahead_true {c : Nat} {s : List Nat} (h : ahead c s = true) : ∃ u, s = c :: u := by
  cases s with
  | nil => simp [ahead] at h
  | cons a u => simp [ahead] at h; exact ⟨u, by rw [h]⟩

theorem ahead_false {c : Nat} {s : List Nat} (h : ¬ ahead c s = true) (u : List Nat) : s ≠ c :: u := by
  rintro rfl; simp [ahead] at h

theorem good_ite {F : PunctCfg} {c : Nat} {t : List Nat} {b : Prop} [Decidable b] {x y : PunctRes}
    (h1 : b → Good F c t x) (h2 : ¬ b → Good F c t y) : Good F c t (if b then x else y) := by
  split
  · exact h1 ‹_›
  · exact h2 ‹_›

theorem good_123 (F : PunctCfg) (t : List Nat) : Good F 123 t (symSwitch F 123 t) := by
  simp only [symSwitch, Nat.reduceEqDiff, if_false, if_true]
  rcases t with t
  all_goals
    try simp only [ahead, ahead2nd, List.head?_cons, List.head?_nil, List.tail_cons, List.tail_nil,
      Option.some_beq_some, Option.none_beq_some, beq_iff_eq, Bool.and_eq_true, Bool.false_eq_true,
      if_false, false_and, and_false, onRune]
    repeat' (refine good_ite (fun _ => ?_) (fun _ => ?_))
  all_goals
    refine ⟨⟨by simp_all [Punct.text], by simp_all [Allowed]⟩, ?_⟩
    rintro p r ⟨h1, h2⟩
    rcases head_123 p _ _ h1 with rfl <;> simp_all [Punct.text, Allowed]

theorem good_125 (F : PunctCfg) (t : List Nat) : Good F 125 t (symSwitch F 125 t) := by
  simp only [symSwitch, Nat.reduceEqDiff, if_false, if_true]
  rcases t with t
  all_goals
    try simp only [ahead, ahead2nd, List.head?_cons, List.head?_nil, List.tail_cons, List.tail_nil,
      Option.some_beq_some, Option.none_beq_some, beq_iff_eq, Bool.and_eq_true, Bool.false_eq_true,
      if_false, false_and, and_false, onRune]
    repeat' (refine good_ite (fun _ => ?_) (fun _ => ?_))
  all_goals
    refine ⟨⟨by simp_all [Punct.text], by simp_all [Allowed]⟩, ?_⟩
    rintro p r ⟨h1, h2⟩
    rcases head_125 p _ _ h1 with rfl <;> simp_all [Punct.text, Allowed]

theorem good_40 (F : PunctCfg) (t : List Nat) : Good F 40 t (symSwitch F 40 t) := by
  simp only [symSwitch, Nat.reduceEqDiff, if_false, if_true]
  rcases t with t
  all_goals
    try simp only [ahead, ahead2nd, List.head?_cons, List.head?_nil, List.tail_cons, List.tail_nil,
      Option.some_beq_some, Option.none_beq_some, beq_iff_eq, Bool.and_eq_true, Bool.false_eq_true,
      if_false, false_and, and_false, onRune]
    repeat' (refine good_ite (fun _ => ?_) (fun _ => ?_))
  all_goals
    refine ⟨⟨by simp_all [Punct.text], by simp_all [Allowed]⟩, ?_⟩
    rintro p r ⟨h1, h2⟩
    rcases head_40 p _ _ h1 with rfl <;> simp_all [Punct.text, Allowed]

theorem good_41 (F : PunctCfg) (t : List Nat) : Good F 41 t (symSwitch F 41 t) := by
  simp only [symSwitch, Nat.reduceEqDiff, if_false, if_true]
  rcases t with t
  all_goals
    try simp only [ahead, ahead2nd, List.head?_cons, List.head?_nil, List.tail_cons, List.tail_nil,
      Option.some_beq_some, Option.none_beq_some, beq_iff_eq, Bool.and_eq_true, Bool.false_eq_true,
      if_false, false_and, and_false, onRune]
    repeat' (refine good_ite (fun _ => ?_) (fun _ => ?_))
  all_goals
    refine ⟨⟨by simp_all [Punct.text], by simp_all [Allowed]⟩, ?_⟩
    rintro p r ⟨h1, h2⟩
    rcases head_41 p _ _ h1 with rfl <;> simp_all [Punct.text, Allowed]

theorem good_91 (F : PunctCfg) (t : List Nat) : Good F 91 t (symSwitch F 91 t) := by
  simp only [symSwitch, Nat.reduceEqDiff, if_false, if_true]
  rcases t with t
  all_goals
    try simp only [ahead, ahead2nd, List.head?_cons, List.head?_nil, List.tail_cons, List.tail_nil,
      Option.some_beq_some, Option.none_beq_some, beq_iff_eq, Bool.and_eq_true, Bool.false_eq_true,
      if_false, false_and, and_false, onRune]
    repeat' (refine good_ite (fun _ => ?_) (fun _ => ?_))
  all_goals
    refine ⟨⟨by simp_all [Punct.text], by simp_all [Allowed]⟩, ?_⟩
    rintro p r ⟨h1, h2⟩
    rcases head_91 p _ _ h1 with rfl <;> simp_all [Punct.text, Allowed]

theorem good_93 (F : PunctCfg) (t : List Nat) : Good F 93 t (symSwitch F 93 t) := by
  simp only [symSwitch, Nat.reduceEqDiff, if_false, if_true]
  rcases t with t
  all_goals
    try simp only [ahead, ahead2nd, List.head?_cons, List.head?_nil, List.tail_cons, List.tail_nil,
      Option.some_beq_some, Option.none_beq_some, beq_iff_eq, Bool.and_eq_true, Bool.false_eq_true,
      if_false, false_and, and_false, onRune]
    repeat' (refine good_ite (fun _ => ?_) (fun _ => ?_))
  all_goals
    refine ⟨⟨by simp_all [Punct.text], by simp_all [Allowed]⟩, ?_⟩
    rintro p r ⟨h1, h2⟩
    rcases head_93 p _ _ h1 with rfl <;> simp_all [Punct.text, Allowed]

theorem good_59 (F : PunctCfg) (t : List Nat) : Good F 59 t (symSwitch F 59 t) := by
  simp only [symSwitch, Nat.reduceEqDiff, if_false, if_true]
  rcases t with t
  all_goals
    try simp only [ahead, ahead2nd, List.head?_cons, List.head?_nil, List.tail_cons, List.tail_nil,
      Option.some_beq_some, Option.none_beq_some, beq_iff_eq, Bool.and_eq_true, Bool.false_eq_true,
      if_false, false_and, and_false, onRune]
    repeat' (refine good_ite (fun _ => ?_) (fun _ => ?_))
  all_goals
    refine ⟨⟨by simp_all [Punct.text], by simp_all [Allowed]⟩, ?_⟩
    rintro p r ⟨h1, h2⟩
    rcases head_59 p _ _ h1 with rfl <;> simp_all [Punct.text, Allowed]

theorem good_44 (F : PunctCfg) (t : List Nat) : Good F 44 t (symSwitch F 44 t) := by
  simp only [symSwitch, Nat.reduceEqDiff, if_false, if_true]
  rcases t with t
  all_goals
    try simp only [ahead, ahead2nd, List.head?_cons, List.head?_nil, List.tail_cons, List.tail_nil,
      Option.some_beq_some, Option.none_beq_some, beq_iff_eq, Bool.and_eq_true, Bool.false_eq_true,
      if_false, false_and, and_false, onRune]
    repeat' (refine good_ite (fun _ => ?_) (fun _ => ?_))
  all_goals
    refine ⟨⟨by simp_all [Punct.text], by simp_all [Allowed]⟩, ?_⟩
    rintro p r ⟨h1, h2⟩
    rcases head_44 p _ _ h1 with rfl <;> simp_all [Punct.text, Allowed]

theorem good_58 (F : PunctCfg) (t : List Nat) : Good F 58 t (symSwitch F 58 t) := by
  simp only [symSwitch, Nat.reduceEqDiff, if_false, if_true]
  rcases t with t
  all_goals
    try simp only [ahead, ahead2nd, List.head?_cons, List.head?_nil, List.tail_cons, List.tail_nil,
      Option.some_beq_some, Option.none_beq_some, beq_iff_eq, Bool.and_eq_true, Bool.false_eq_true,
      if_false, false_and, and_false, onRune]
    repeat' (refine good_ite (fun _ => ?_) (fun _ => ?_))
  all_goals
    refine ⟨⟨by simp_all [Punct.text], by simp_all [Allowed]⟩, ?_⟩
    rintro p r ⟨h1, h2⟩
    rcases head_58 p _ _ h1 with rfl <;> simp_all [Punct.text, Allowed]

theorem good_46 (F : PunctCfg) (t : List Nat) : Good F 46 t (symSwitch F 46 t) := by
  simp only [symSwitch, Nat.reduceEqDiff, if_false, if_true]
  rcases t with (_ | ⟨a, _ | ⟨b, u⟩⟩)
  all_goals
    try simp only [ahead, ahead2nd, List.head?_cons, List.head?_nil, List.tail_cons, List.tail_nil,
      Option.some_beq_some, Option.none_beq_some, beq_iff_eq, Bool.and_eq_true, Bool.false_eq_true,
      if_false, false_and, and_false, onRune]
    repeat' (refine good_ite (fun _ => ?_) (fun _ => ?_))
  all_goals
    refine ⟨⟨by simp_all [Punct.text], by simp_all [Allowed]⟩, ?_⟩
    rintro p r ⟨h1, h2⟩
    rcases head_46 p _ _ h1 with rfl | rfl <;> simp_all [Punct.text, Allowed]

theorem good_43 (F : PunctCfg) (t : List Nat) : Good F 43 t (symSwitch F 43 t) := by
  simp only [symSwitch, Nat.reduceEqDiff, if_false, if_true]
  rcases t with (_ | ⟨a, u⟩)
  all_goals
    try simp only [ahead, ahead2nd, List.head?_cons, List.head?_nil, List.tail_cons, List.tail_nil,
      Option.some_beq_some, Option.none_beq_some, beq_iff_eq, Bool.and_eq_true, Bool.false_eq_true,
      if_false, false_and, and_false, onRune]
    repeat' (refine good_ite (fun _ => ?_) (fun _ => ?_))
  all_goals
    refine ⟨⟨by simp_all [Punct.text], by simp_all [Allowed]⟩, ?_⟩
    rintro p r ⟨h1, h2⟩
    rcases head_43 p _ _ h1 with rfl | rfl | rfl <;> simp_all [Punct.text, Allowed]

theorem good_45 (F : PunctCfg) (t : List Nat) : Good F 45 t (symSwitch F 45 t) := by
  simp only [symSwitch, Nat.reduceEqDiff, if_false, if_true]
  rcases t with (_ | ⟨a, u⟩)
  all_goals
    try simp only [ahead, ahead2nd, List.head?_cons, List.head?_nil, List.tail_cons, List.tail_nil,
      Option.some_beq_some, Option.none_beq_some, beq_iff_eq, Bool.and_eq_true, Bool.false_eq_true,
      if_false, false_and, and_false, onRune]
    repeat' (refine good_ite (fun _ => ?_) (fun _ => ?_))
  all_goals
    refine ⟨⟨by simp_all [Punct.text], by simp_all [Allowed]⟩, ?_⟩
    rintro p r ⟨h1, h2⟩
    rcases head_45 p _ _ h1 with rfl | rfl | rfl <;> simp_all [Punct.text, Allowed]

theorem good_61 (F : PunctCfg) (t : List Nat) : Good F 61 t (symSwitch F 61 t) := by
  simp only [symSwitch, Nat.reduceEqDiff, if_false, if_true]
  rcases t with (_ | ⟨a, _ | ⟨b, u⟩⟩)
  all_goals
    try simp only [ahead, ahead2nd, List.head?_cons, List.head?_nil, List.tail_cons, List.tail_nil,
      Option.some_beq_some, Option.none_beq_some, beq_iff_eq, Bool.and_eq_true, Bool.false_eq_true,
      if_false, false_and, and_false, onRune]
    repeat' (refine good_ite (fun _ => ?_) (fun _ => ?_))
  all_goals
    refine ⟨⟨by simp_all [Punct.text], by simp_all [Allowed]⟩, ?_⟩
    rintro p r ⟨h1, h2⟩
    rcases head_61 p _ _ h1 with rfl | rfl | rfl | rfl <;> simp_all [Punct.text, Allowed]

theorem good_62 (F : PunctCfg) (t : List Nat) : Good F 62 t (symSwitch F 62 t) := by
  simp only [symSwitch, Nat.reduceEqDiff, if_false, if_true]
  rcases t with (_ | ⟨a, _ | ⟨b, _ | ⟨d, u⟩⟩⟩)
  all_goals
    try simp only [ahead, ahead2nd, List.head?_cons, List.head?_nil, List.tail_cons, List.tail_nil,
      Option.some_beq_some, Option.none_beq_some, beq_iff_eq, Bool.and_eq_true, Bool.false_eq_true,
      if_false, false_and, and_false, onRune]
    repeat' (refine good_ite (fun _ => ?_) (fun _ => ?_))
  all_goals
    refine ⟨⟨by simp_all [Punct.text], by simp_all [Allowed]⟩, ?_⟩
    rintro p r ⟨h1, h2⟩
    rcases head_62 p _ _ h1 with rfl | rfl | rfl | rfl | rfl | rfl <;> simp_all [Punct.text, Allowed]

theorem good_124 (F : PunctCfg) (t : List Nat) : Good F 124 t (symSwitch F 124 t) := by
  simp only [symSwitch, Nat.reduceEqDiff, if_false, if_true]
  rcases t with (_ | ⟨a, _ | ⟨b, u⟩⟩)
  all_goals
    try simp only [ahead, ahead2nd, List.head?_cons, List.head?_nil, List.tail_cons, List.tail_nil,
      Option.some_beq_some, Option.none_beq_some, beq_iff_eq, Bool.and_eq_true, Bool.false_eq_true,
      if_false, false_and, and_false, onRune]
    repeat' (refine good_ite (fun _ => ?_) (fun _ => ?_))
  all_goals
    refine ⟨⟨by simp_all [Punct.text], by simp_all [Allowed]⟩, ?_⟩
    rintro p r ⟨h1, h2⟩
    rcases head_124 p _ _ h1 with rfl | rfl | rfl | rfl <;> simp_all [Punct.text, Allowed]

theorem good_38 (F : PunctCfg) (t : List Nat) : Good F 38 t (symSwitch F 38 t) := by
  simp only [symSwitch, Nat.reduceEqDiff, if_false, if_true]
  rcases t with (_ | ⟨a, _ | ⟨b, u⟩⟩)
  all_goals
    try simp only [ahead, ahead2nd, List.head?_cons, List.head?_nil, List.tail_cons, List.tail_nil,
      Option.some_beq_some, Option.none_beq_some, beq_iff_eq, Bool.and_eq_true, Bool.false_eq_true,
      if_false, false_and, and_false, onRune]
    repeat' (refine good_ite (fun _ => ?_) (fun _ => ?_))
  all_goals
    refine ⟨⟨by simp_all [Punct.text], by simp_all [Allowed]⟩, ?_⟩
    rintro p r ⟨h1, h2⟩
    rcases head_38 p _ _ h1 with rfl | rfl | rfl | rfl <;> simp_all [Punct.text, Allowed]

theorem good_37 (F : PunctCfg) (t : List Nat) : Good F 37 t (symSwitch F 37 t) := by
  simp only [symSwitch, Nat.reduceEqDiff, if_false, if_true]
  rcases t with (_ | ⟨a, u⟩)
  all_goals
    try simp only [ahead, ahead2nd, List.head?_cons, List.head?_nil, List.tail_cons, List.tail_nil,
      Option.some_beq_some, Option.none_beq_some, beq_iff_eq, Bool.and_eq_true, Bool.false_eq_true,
      if_false, false_and, and_false, onRune]
    repeat' (refine good_ite (fun _ => ?_) (fun _ => ?_))
  all_goals
    refine ⟨⟨by simp_all [Punct.text], by simp_all [Allowed]⟩, ?_⟩
    rintro p r ⟨h1, h2⟩
    rcases head_37 p _ _ h1 with rfl | rfl <;> simp_all [Punct.text, Allowed]

theorem good_33 (F : PunctCfg) (t : List Nat) : Good F 33 t (symSwitch F 33 t) := by
  simp only [symSwitch, Nat.reduceEqDiff, if_false, if_true]
  rcases t with (_ | ⟨a, _ | ⟨b, u⟩⟩)
  all_goals
    try simp only [ahead, ahead2nd, List.head?_cons, List.head?_nil, List.tail_cons, List.tail_nil,
      Option.some_beq_some, Option.none_beq_some, beq_iff_eq, Bool.and_eq_true, Bool.false_eq_true,
      if_false, false_and, and_false, onRune]
    repeat' (refine good_ite (fun _ => ?_) (fun _ => ?_))
  all_goals
    refine ⟨⟨by simp_all [Punct.text], by simp_all [Allowed]⟩, ?_⟩
    rintro p r ⟨h1, h2⟩
    rcases head_33 p _ _ h1 with rfl | rfl | rfl <;> simp_all [Punct.text, Allowed]

theorem good_126 (F : PunctCfg) (t : List Nat) : Good F 126 t (symSwitch F 126 t) := by
  simp only [symSwitch, Nat.reduceEqDiff, if_false, if_true]
  rcases t with t
  all_goals
    try simp only [ahead, ahead2nd, List.head?_cons, List.head?_nil, List.tail_cons, List.tail_nil,
      Option.some_beq_some, Option.none_beq_some, beq_iff_eq, Bool.and_eq_true, Bool.false_eq_true,
      if_false, false_and, and_false, onRune]
    repeat' (refine good_ite (fun _ => ?_) (fun _ => ?_))
  all_goals
    refine ⟨⟨by simp_all [Punct.text], by simp_all [Allowed]⟩, ?_⟩
    rintro p r ⟨h1, h2⟩
    rcases head_126 p _ _ h1 with rfl <;> simp_all [Punct.text, Allowed]

theorem good_94 (F : PunctCfg) (t : List Nat) : Good F 94 t (symSwitch F 94 t) := by
  simp only [symSwitch, Nat.reduceEqDiff, if_false, if_true]
  rcases t with (_ | ⟨a, u⟩)
  all_goals
    try simp only [ahead, ahead2nd, List.head?_cons, List.head?_nil, List.tail_cons, List.tail_nil,
      Option.some_beq_some, Option.none_beq_some, beq_iff_eq, Bool.and_eq_true, Bool.false_eq_true,
      if_false, false_and, and_false, onRune]
    repeat' (refine good_ite (fun _ => ?_) (fun _ => ?_))
  all_goals
    refine ⟨⟨by simp_all [Punct.text], by simp_all [Allowed]⟩, ?_⟩
    rintro p r ⟨h1, h2⟩
    rcases head_94 p _ _ h1 with rfl | rfl <;> simp_all [Punct.text, Allowed]

theorem good_63 (F : PunctCfg) (t : List Nat) : Good F 63 t (symSwitch F 63 t) := by
  simp only [symSwitch, Nat.reduceEqDiff, if_false, if_true]
  refine good_ite (fun hopt => ?_) (fun hopt => good_ite (fun h1 => good_ite (fun h2 => ?_)
    (fun h2 => ?_)) (fun h1 => ?_))
  · simp only [Bool.and_eq_true] at hopt
    obtain ⟨u, rfl⟩ := ahead_true hopt.1
    refine ⟨⟨rfl, ?_⟩, ?_⟩
    · intro c hc
      cases u with
      | nil => cases hc
      | cons d u =>
        simp only [List.tail_cons, List.head?_cons, Option.some.injEq] at hc
        subst hc
        have := hopt.2
        simp only [ahead2nd, onRune, List.tail_cons, List.head?_cons] at this
        intro hd; simp [isDecimalDigit] at this; simp at hd; omega
    · rintro p r ⟨h1, h2⟩
      rcases head_63 p _ _ h1 with rfl | rfl | rfl | rfl <;> simp_all [Punct.text]
  · obtain ⟨u, rfl⟩ := ahead_true h1
    obtain ⟨v, hv⟩ := ahead_true h2
    simp only [List.tail_cons] at hv
    subst hv
    refine ⟨⟨rfl, trivial⟩, ?_⟩
    rintro p r ⟨h1, h2⟩
    rcases head_63 p _ _ h1 with rfl | rfl | rfl | rfl <;> simp [Punct.text]
  · obtain ⟨u, rfl⟩ := ahead_true h1
    have h2 := ahead_false h2
    refine ⟨⟨rfl, trivial⟩, ?_⟩
    rintro p r ⟨h1, h2⟩
    rcases head_63 p _ _ h1 with rfl | rfl | rfl | rfl <;> simp [Punct.text]
    simp_all [Punct.text]
  · have h1 := ahead_false h1
    refine ⟨⟨rfl, trivial⟩, ?_⟩
    rintro p r ⟨h3, h4⟩
    rcases head_63 p _ _ h3 with rfl | rfl | rfl | rfl
    · simp
    · exfalso
      simp only [Punct.text, List.cons_append, List.nil_append, List.cons.injEq, true_and] at h3
      subst h3
      apply hopt
      cases r with
      | nil => rfl
      | cons d r =>
        have := h4 d rfl
        simp only [ahead, ahead2nd, onRune, List.tail_cons, List.head?_cons, isDecimalDigit]
        simp at this ⊢; omega
    · simp_all [Punct.text]
    · simp_all [Punct.text]

theorem lsh_allowed {F : PunctCfg} {b : Nat} {u : List Nat}
    (h : ¬ ((!Span.isSpace b) = true ∧ (F.ts || F.tsTypArg) = true)) : Allowed F .lsh (b :: u) := by
  intro ht
  refine ⟨b, rfl, ?_⟩
  by_cases hb : Span.isSpace b = true
  · exact (Span.isSpace_iff b).1 hb
  · exfalso; apply h; simp_all

theorem good_60 (F : PunctCfg) (t : List Nat)
    (hts : F.maybeLshHere = true → F.lshHere = true ∨ (F.ts = false ∧ F.tsTypArg = false)) :
    Good F 60 t (symSwitch F 60 t) := by
  simp only [symSwitch, Nat.reduceEqDiff, if_false, if_true]
  have h61 : Span.isSpace 61 = false := by decide
  rcases t with (_ | ⟨a, _ | ⟨b, u⟩⟩)
  · simp only [ahead, List.head?_nil, Option.none_beq_some, Bool.false_eq_true, if_false]
    refine ⟨⟨rfl, trivial⟩, ?_⟩
    rintro p r ⟨h1, h2⟩
    rcases head_60 p _ _ h1 with rfl | rfl | rfl | rfl <;> simp_all [Punct.text]
  · simp only [ahead, ahead2nd, List.head?_cons, List.head?_nil, List.tail_cons, List.tail_nil,
      Option.some_beq_some, Option.none_beq_some, beq_iff_eq, Bool.and_eq_true, Bool.false_eq_true,
      if_false, onRune, Bool.not_false, true_and]
    repeat' (refine good_ite (fun _ => ?_) (fun _ => ?_))
    case refine_2.refine_1.refine_1.refine_2.refine_2 => simp_all
    all_goals
      refine ⟨⟨by simp_all [Punct.text], by simp_all [Allowed]⟩, ?_⟩
      rintro p r ⟨h1, h2⟩
      rcases head_60 p _ _ h1 with rfl | rfl | rfl | rfl <;> simp_all [Punct.text, Allowed]
  · simp only [ahead, ahead2nd, List.head?_cons, List.tail_cons,
      Option.some_beq_some, beq_iff_eq, Bool.and_eq_true, onRune]
    refine good_ite (fun h1 => ?_) (fun h1 => good_ite (fun h2 => ?_) (fun h2 => ?_))
    · refine ⟨⟨by simp_all [Punct.text], by simp_all [Allowed]⟩, ?_⟩
      rintro p r ⟨h1, h2⟩
      rcases head_60 p _ _ h1 with rfl | rfl | rfl | rfl <;> simp_all [Punct.text, Allowed]
    · subst h2
      refine good_ite (fun h3 => ?_) (fun h3 => ?_)
      · have hlt : Longest F .lt (60 :: 60 :: b :: u) (60 :: b :: u) := by
          refine ⟨⟨rfl, trivial⟩, ?_⟩
          rintro p r ⟨h4, h5⟩
          rcases head_60 p _ _ h4 with rfl | rfl | rfl | rfl
          · simp
          · simp [Punct.text] at h4
          · simp only [Punct.text, List.cons_append, List.nil_append, List.cons.injEq, true_and] at h4
            subst h4
            obtain ⟨c, hc, hs⟩ := h5 (by simpa using h3.2)
            simp only [List.head?_cons, Option.some.injEq] at hc
            subst hc
            rw [← Span.isSpace_iff] at hs
            simp_all
          · simp_all [Allowed]
        refine good_ite (fun h4 => hlt) (fun h4 => good_ite (fun h5 => hlt) (fun h5 => ?_))
        exfalso; simp_all
      · refine good_ite (fun h4 => ?_) (fun h4 => ?_)
        · subst h4
          refine ⟨⟨by simp [Punct.text], by simp_all [Allowed]⟩, ?_⟩
          rintro p r ⟨h4, h5⟩
          rcases head_60 p _ _ h4 with rfl | rfl | rfl | rfl <;> simp [Punct.text]
        · refine ⟨⟨by simp [Punct.text], lsh_allowed h3⟩, ?_⟩
          rintro p r ⟨h5, h6⟩
          rcases head_60 p _ _ h5 with rfl | rfl | rfl | rfl <;> simp [Punct.text]
          simp_all [Punct.text]
    · refine ⟨⟨by simp [Punct.text], trivial⟩, ?_⟩
      rintro p r ⟨h5, h6⟩
      rcases head_60 p _ _ h5 with rfl | rfl | rfl | rfl <;> simp_all [Punct.text]

theorem good_42 (F : PunctCfg) (t : List Nat) : Good F 42 t (symSwitch F 42 t) := by
  simp only [symSwitch, Nat.reduceEqDiff, if_false, if_true]
  rcases t with (_ | ⟨a, u⟩)
  · simp only [ahead, List.head?_nil, Option.none_beq_some, Bool.false_eq_true, if_false]
    refine ⟨⟨rfl, trivial⟩, ?_⟩
    rintro p r ⟨h1, h2⟩
    rcases head_42 p _ _ h1 with rfl | rfl | rfl | rfl <;> simp_all [Punct.text]
  · simp only [ahead, List.head?_cons, List.tail_cons, Option.some_beq_some, beq_iff_eq]
    refine good_ite (fun h1 => ?_) (fun h1 => ?_)
    · subst h1
      refine good_ite (fun h2 => ?_) (fun h2 => good_ite (fun h3 => ?_) (fun h3 => ?_))
      · rintro p r ⟨⟨h3, h4⟩, h5⟩
        have := h5 .pow u ⟨rfl, trivial⟩
        rcases head_42 p _ _ h3 with rfl | rfl | rfl | rfl
        · simp [Punct.text] at this
        · simp [Punct.text] at h3
        · simp [Enabled, h2]
        · simp [Enabled, h2]
      · cases u with
        | nil => simp at h3
        | cons b u =>
          simp only [List.head?_cons, Option.some.injEq] at h3
          subst h3
          refine ⟨⟨rfl, trivial⟩, ?_⟩
          rintro p r ⟨h1, h2⟩
          rcases head_42 p _ _ h1 with rfl | rfl | rfl | rfl <;> simp [Punct.text]
      · refine ⟨⟨rfl, trivial⟩, ?_⟩
        rintro p r ⟨h1, h2⟩
        rcases head_42 p _ _ h1 with rfl | rfl | rfl | rfl <;> simp [Punct.text]
        simp_all [Punct.text]
    · repeat' (refine good_ite (fun _ => ?_) (fun _ => ?_))
      all_goals
        refine ⟨⟨by simp_all [Punct.text], trivial⟩, ?_⟩
        rintro p r ⟨h1, h2⟩
        rcases head_42 p _ _ h1 with rfl | rfl | rfl | rfl <;> simp_all [Punct.text]

theorem good_47 (F : PunctCfg) (t : List Nat) : Good F 47 t (symSwitch F 47 t) := by
  simp only [symSwitch, Nat.reduceEqDiff, if_false, if_true]
  refine good_ite (fun h1 => ?_) (fun h1 => good_ite (fun h2 => ?_) (fun h2 => good_ite (fun h3 => ?_)
    (fun h3 => good_ite (fun h4 => ?_) (fun h4 => ?_))))
  · rintro p r ⟨h5, h6⟩
    obtain ⟨u, rfl⟩ := ahead_true h1
    rcases head_47 p _ _ h5 with rfl | rfl
    · simp only [Punct.text, List.cons_append, List.nil_append, List.cons.injEq, true_and] at h5
      subst h5
      exact h6.2.1 rfl
    · simp [Punct.text] at h5
  · rintro p r ⟨h5, h6⟩
    obtain ⟨u, rfl⟩ := ahead_true h2
    rcases head_47 p _ _ h5 with rfl | rfl
    · simp only [Punct.text, List.cons_append, List.nil_append, List.cons.injEq, true_and] at h5
      subst h5
      exact h6.2.2 rfl
    · simp [Punct.text] at h5
  · rintro p r ⟨h5, h6⟩
    rcases head_47 p _ _ h5 with rfl | rfl <;> simp_all [Allowed]
  · obtain ⟨u, rfl⟩ := ahead_true h4
    refine ⟨⟨rfl, by simpa [Allowed] using h3⟩, ?_⟩
    rintro p r ⟨h5, h6⟩
    rcases head_47 p _ _ h5 with rfl | rfl <;> simp [Punct.text]
  · refine ⟨⟨rfl, by simpa using h3, ?_, ?_⟩, ?_⟩
    · intro hh
      cases t with
      | nil => cases hh
      | cons a u => simp only [List.head?_cons, Option.some.injEq] at hh; subst hh; exact h1 rfl
    · intro hh
      cases t with
      | nil => cases hh
      | cons a u => simp only [List.head?_cons, Option.some.injEq] at hh; subst hh; exact h2 rfl
    · rintro p r ⟨h5, h6⟩
      rcases head_47 p _ _ h5 with rfl | rfl
      · simp
      · simp only [Punct.text, List.cons_append, List.nil_append, List.cons.injEq, true_and] at h5
        exact absurd h5 (ahead_false h4 _)

theorem good_64 (F : PunctCfg) (t : List Nat) : Good F 64 t (symSwitch F 64 t) := by
  simp only [symSwitch, Nat.reduceEqDiff, if_false, if_true]
  refine good_ite (fun h => ?_) (fun h => ?_)
  · refine ⟨⟨by simp [Punct.text], by simp [Allowed]⟩, ?_⟩
    rintro p r ⟨h1, h2⟩
    rcases head_64 p _ _ h1 with rfl; simp
  · intro p r ⟨⟨h1, h2⟩, h3⟩
    rcases head_64 p _ _ h1 with rfl
    simpa [Enabled] using h

/-- The switch returns the longest punctuator. -/
theorem symSwitch_good (F : PunctCfg) (c : Nat) (t : List Nat)
    (hts : F.maybeLshHere = true → F.lshHere = true ∨ (F.ts = false ∧ F.tsTypArg = false)) :
    Good F c t (symSwitch F c t) := by
  by_cases h123 : c = 123
  · subst h123; exact good_123 F t
  by_cases h125 : c = 125
  · subst h125; exact good_125 F t
  by_cases h40 : c = 40
  · subst h40; exact good_40 F t
  by_cases h41 : c = 41
  · subst h41; exact good_41 F t
  by_cases h91 : c = 91
  · subst h91; exact good_91 F t
  by_cases h93 : c = 93
  · subst h93; exact good_93 F t
  by_cases h59 : c = 59
  · subst h59; exact good_59 F t
  by_cases h44 : c = 44
  · subst h44; exact good_44 F t
  by_cases h58 : c = 58
  · subst h58; exact good_58 F t
  by_cases h46 : c = 46
  · subst h46; exact good_46 F t
  by_cases h63 : c = 63
  · subst h63; exact good_63 F t
  by_cases h43 : c = 43
  · subst h43; exact good_43 F t
  by_cases h45 : c = 45
  · subst h45; exact good_45 F t
  by_cases h61 : c = 61
  · subst h61; exact good_61 F t
  by_cases h60 : c = 60
  · subst h60; exact good_60 F t hts
  by_cases h62 : c = 62
  · subst h62; exact good_62 F t
  by_cases h42 : c = 42
  · subst h42; exact good_42 F t
  by_cases h124 : c = 124
  · subst h124; exact good_124 F t
  by_cases h38 : c = 38
  · subst h38; exact good_38 F t
  by_cases h37 : c = 37
  · subst h37; exact good_37 F t
  by_cases h33 : c = 33
  · subst h33; exact good_33 F t
  by_cases h126 : c = 126
  · subst h126; exact good_126 F t
  by_cases h94 : c = 94
  · subst h94; exact good_94 F t
  by_cases h47 : c = 47
  · subst h47; exact good_47 F t
  by_cases h64 : c = 64
  · subst h64; exact good_64 F t
  simp only [symSwitch, h123, h125, h40, h41, h91, h93, h59, h44, h58, h46, h63, h43, h45, h61, h60, h62, h42, h124, h38, h37, h33, h126, h94, h47, h64, if_false]
  intro p r hl
  exfalso
  have := hl.1.1
  cases p <;> simp_all [Punct.text]

theorem longest_unique {F : PunctCfg} {p p' : Punct} {s rest rest' : List Nat}
    (h : Longest F p s rest) (h' : Longest F p' s rest') : p = p' ∧ rest = rest' := by
  have hl : p.text.length = p'.text.length :=
    Nat.le_antisymm (h'.2 _ _ h.1) (h.2 _ _ h'.1)
  have he := h.1.1.symm.trans h'.1.1
  obtain ⟨h1, h2⟩ := List.append_inj he hl
  refine ⟨?_, h2⟩
  cases p <;> cases p' <;> first | rfl | (simp [Punct.text] at h1)

theorem gate_on {F : PunctCfg} {q : Punct} (h : Enabled F q) (s : List Nat) :
    gate F (.punct q s) = .punct q s := by
  cases q <;> simp_all [gate, Enabled]

theorem gate_off {F : PunctCfg} {q : Punct} (h : ¬ Enabled F q)
    (h1 : q = .pow ∨ q = .assignPow → F.pow = true) (h2 : q = .«at» → F.decorator = true)
    (s : List Nat) : gate F (.punct q s) = .illegal := by
  cases q <;> simp only [gate, Enabled, not_true_eq_false] at * <;> simp_all

theorem gate_punct (F : PunctCfg) (r : PunctRes) (p : Punct) (rest : List Nat)
    (hpow : ∀ q s, r = .punct q s → (q = .pow ∨ q = .assignPow → F.pow = true) ∧
      (q = .«at» → F.decorator = true)) :
    gate F r = .punct p rest ↔ r = .punct p rest ∧ Enabled F p := by
  cases r with
  | slash => simp [gate]
  | illegal => simp [gate]
  | punct q s =>
    by_cases he : Enabled F q
    · rw [gate_on he]
      constructor
      · intro h; cases h; exact ⟨rfl, he⟩
      · rintro ⟨h, -⟩; exact h
    · rw [gate_off he (hpow q s rfl).1 (hpow q s rfl).2]
      constructor
      · intro h; cases h
      · rintro ⟨h, h2⟩; cases h; exact absurd h2 he

theorem switch_features (F : PunctCfg) (c : Nat) (t : List Nat) (q : Punct) (s : List Nat)
    (hts : F.maybeLshHere = true → F.lshHere = true ∨ (F.ts = false ∧ F.tsTypArg = false))
    (h : symSwitch F c t = .punct q s) : (q = .pow ∨ q = .assignPow → F.pow = true) ∧
      (q = .«at» → F.decorator = true) := by
  have hg := symSwitch_good F c t hts
  rw [h] at hg
  have ht : c :: t = q.text ++ s := hg.1.1
  refine ⟨fun hq => ?_, fun hq => ?_⟩
  · cases hp : F.pow with
    | true => rfl
    | false =>
      exfalso
      rcases hq with rfl | rfl
      all_goals
        simp only [Punct.text, List.cons_append, List.nil_append, List.cons.injEq] at ht
        obtain ⟨rfl, rfl⟩ := ht
        simp [symSwitch, ahead, hp] at h
  · cases hp : F.decorator with
    | true => rfl
    | false =>
      exfalso
      subst hq
      simp only [Punct.text, List.cons_append, List.nil_append, List.cons.injEq] at ht
      obtain ⟨rfl, rfl⟩ := ht
      simp [symSwitch, hp] at h

/-- **C12.** Reading a symbol returns a punctuator exactly when it is the longest one the text
starts with and its feature is on; it consumes exactly its characters.  (The hypothesis
excludes the second attempt at a `<<` in TypeScript, whose token is illegal by design.) -/
theorem readSymbol_iff (F : PunctCfg) (s : List Nat) (p : Punct) (rest : List Nat)
    (hts : F.maybeLshHere = true → F.lshHere = true ∨ (F.ts = false ∧ F.tsTypArg = false)) :
    readSymbol F s = .punct p rest ↔ Longest F p s rest ∧ Enabled F p := by
  cases s with
  | nil =>
    simp only [readSymbol, rd]
    constructor
    · intro h; cases h
    · rintro ⟨⟨⟨h, -⟩, -⟩, -⟩
      cases p <;> simp [Punct.text] at h
  | cons c t =>
    by_cases hc : c = 13
    · subst hc
      constructor
      · intro h
        exfalso
        cases t with
        | nil => simp [readSymbol, rd, symSwitch, gate] at h
        | cons d t => by_cases hd : d = 10 <;> simp [readSymbol, rd, symSwitch, gate, hd] at h
      · rintro ⟨⟨⟨h, -⟩, -⟩, -⟩
        cases p <;> simp [Punct.text] at h
    · rw [show readSymbol F (c :: t) = gate F (symSwitch F c t) by simp [readSymbol, rd, hc],
        gate_punct F _ _ _ (fun q s h => switch_features F c t q s hts h)]
      have hg := symSwitch_good F c t hts
      constructor
      · rintro ⟨h1, h2⟩
        rw [h1] at hg
        exact ⟨hg, h2⟩
      · rintro ⟨h1, h2⟩
        refine ⟨?_, h2⟩
        cases hr : symSwitch F c t with
        | punct q r =>
          rw [hr] at hg
          obtain ⟨rfl, rfl⟩ := longest_unique hg h1
          rfl
        | slash => rw [hr] at hg; exact absurd h1.1 (hg _ _)
        | illegal => rw [hr] at hg; exact absurd h2 (hg _ _ h1)

/-- Non-vacuity: `>>>=x`, and `?.5`. -/
example : readSymbol ⟨true, true, true, true, true, true, true, false, false, false, false, false⟩
    [62, 62, 62, 61, 120] = .punct .assignRshU [120] := by decide
example : readSymbol ⟨true, true, true, true, true, true, true, false, false, false, false, false⟩
    [63, 46, 53] = .punct .hook [46, 53] := by decide

end Mole.Lexer
