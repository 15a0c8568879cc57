/-! # Template literals (C54): model of Parser.tplExpr (ecma/parser/parser.go 4775-4827) and tplLiteral
(ecma/estree/convert.go 145-198) -/

namespace Mole.Estree

/-- A node of a template as the code looks at it: a string literal (node type N_LIT_STR) or any other expression, with what
identifies it. -/
inductive Elem where
  | str (text : String)
  | other (id : Nat)
deriving DecidableEq

/-- What the parser reads: template tokens, which end the template (`T_TPL_TAIL`, or a template without substitutions,
parser.go 4806) or not, expressions, and whatever else. -/
inductive Item where
  | tok (last : Bool) (text : String)
  | expr (e : Elem)
  | bad
deriving DecidableEq

/-- parser.go 4785-4824: the loop, with the elements so far; `none` is a syntax error.  Simplified: illegal escapes are among
`bad`, and parsing an expression takes one item. -/
def tplLoop : List Item → List Elem → Option (List Elem × List Item)
  | .tok true text :: rest, elems => some (elems ++ [.str text], rest)
  | .tok false text :: .expr e :: rest, elems => tplLoop rest (elems ++ [.str text] ++ [e])
  | _, _ => none

/-- parser.go 4775-4827 (tplExpr): the template's elements. -/
def tplExpr (items : List Item) : Option (List Elem) := (tplLoop items []).map (·.1)

/-- estree/node.go (TemplateElement): a quasi and its `Tail`. -/
structure Quasi where
  text : String
  tail : Bool
deriving DecidableEq

/-- convert.go 149-187: the loop of tplLiteral, from index `i` of `cnt`. -/
def litLoop (cnt : Nat) : Nat → List Elem → List Quasi → List Elem → List Quasi × List Elem
  | _, [], qs, es => (qs, es)
  | i, .other id :: rest, qs, es =>
    litLoop cnt (i + 1) rest (if i == 0 || i + 1 == cnt then qs ++ [⟨"", i + 1 == cnt⟩] else qs) (es ++ [.other id])
  | i, .str t :: rest, qs, es => litLoop cnt (i + 1) rest (qs ++ [⟨t, i + 1 == cnt⟩]) es

/-- convert.go 145-198 (tplLiteral): quasis and expressions.  The locations are left out. -/
def tplLiteral (elems : List Elem) : List Quasi × List Elem := litLoop elems.length 0 elems [] []

/-! ## Specification -/

/-- A template: a text, and then expressions with a text after each. -/
structure Template where
  head : String
  rest : List (Elem × String)

/-- How a template is written. -/
def Template.itemsFrom (head : String) : List (Elem × String) → List Item
  | [] => [.tok true head]
  | (e, t) :: rest => .tok false head :: .expr e :: Template.itemsFrom t rest

def Template.items (t : Template) : List Item := Template.itemsFrom t.head t.rest

/-- Its texts and its expressions, in source order. -/
def Template.texts (t : Template) : List String := t.head :: t.rest.map Prod.snd
def Template.exprs (t : Template) : List Elem := t.rest.map Prod.fst

/-- The texts as quasis, of which the last is the tail. -/
def quasisOf : List String → List Quasi
  | [] => []
  | [t] => [⟨t, true⟩]
  | t :: u :: ts => ⟨t, false⟩ :: quasisOf (u :: ts)

/-! ## Proofs -/

def elemsFrom (head : String) : List (Elem × String) → List Elem
  | [] => [.str head]
  | (e, t) :: rest => .str head :: e :: elemsFrom t rest

theorem tplLoop_items : ∀ (rest : List (Elem × String)) (head : String) (acc : List Elem) (more : List Item),
    tplLoop (Template.itemsFrom head rest ++ more) acc = some (acc ++ elemsFrom head rest, more)
  | [], head, acc, more => by simp [Template.itemsFrom, tplLoop, elemsFrom]
  | (e, t) :: rest, head, acc, more => by
    simp only [Template.itemsFrom, List.cons_append, tplLoop, elemsFrom]
    rw [tplLoop_items rest t]
    simp

theorem tplLoop_sound : ∀ (n : Nat) (items : List Item) (acc es : List Elem) (more : List Item), items.length ≤ n →
    tplLoop items acc = some (es, more) → ∃ head rest, items = Template.itemsFrom head rest ++ more ∧ es = acc ++ elemsFrom head rest := by
  intro n
  induction n with
  | zero =>
    intro items acc es more hl h
    have : items = [] := List.eq_nil_of_length_eq_zero (by omega)
    subst this
    simp [tplLoop] at h
  | succ n ih =>
    intro items acc es more hl h
    match items, h with
    | [], h => simp [tplLoop] at h
    | .expr _ :: _, h => simp [tplLoop] at h
    | .bad :: _, h => simp [tplLoop] at h
    | .tok true text :: rest, h =>
      simp only [tplLoop, Option.some.injEq, Prod.mk.injEq] at h
      obtain ⟨h1, h2⟩ := h
      exact ⟨text, [], by simp [Template.itemsFrom, h2], by simp [elemsFrom, ← h1]⟩
    | [.tok false text], h => simp [tplLoop] at h
    | .tok false text :: .tok _ _ :: _, h => simp [tplLoop] at h
    | .tok false text :: .bad :: _, h => simp [tplLoop] at h
    | .tok false text :: .expr e :: rest, h =>
      simp only [tplLoop] at h
      obtain ⟨head, r, h1, h2⟩ := ih rest _ es more (by simp only [List.length_cons] at hl; omega) h
      exact ⟨text, (e, head) :: r, by simp [Template.itemsFrom, h1], by simp [elemsFrom, h2]⟩

theorem elems_ne (head : String) (rest : List (Elem × String)) : elemsFrom head rest ≠ [] := by
  cases rest <;> simp [elemsFrom]

theorem litLoop_elems (cnt : Nat) : ∀ (rest : List (Elem × String)) (head : String) (i : Nat) (qs : List Quasi) (es : List Elem),
    (∀ x ∈ rest, ∀ t, x.1 ≠ .str t) → i + (elemsFrom head rest).length = cnt →
    litLoop cnt i (elemsFrom head rest) qs es = (qs ++ quasisOf (head :: rest.map Prod.snd), es ++ rest.map Prod.fst)
  | [], head, i, qs, es, _, hc => by
    simp only [elemsFrom, List.length_cons, List.length_nil] at hc
    have : (i + 1 == cnt) = true := by simp; omega
    simp [elemsFrom, litLoop, quasisOf, this]
  | (e, t) :: rest, head, i, qs, es, hx, hc => by
    simp only [elemsFrom, List.length_cons] at hc
    have hpos : 0 < (elemsFrom t rest).length := List.length_pos_iff.mpr (elems_ne t rest)
    have h1 : (i + 1 == cnt) = false := by simp; omega
    have h2 : (i + 1 + 1 == cnt) = false := by simp; omega
    have h3 : (i + 1 == 0) = false := by simp
    cases e with
    | str s => exact absurd rfl (hx _ (List.mem_cons_self ..) s)
    | other id =>
      simp only [elemsFrom, litLoop, h1, h2, h3, Bool.or_false, Bool.false_eq_true, if_false]
      rw [litLoop_elems cnt rest t (i + 1 + 1) _ _ (fun x hx' => hx x (List.mem_cons_of_mem _ hx')) (by omega)]
      simp [quasisOf]

/-! ## Properties -/

/-- **C54** (partial: for templates none of whose expressions is a string literal, see `string_expr_violated`).  What the parser
accepts is a template, and its conversion has the template's texts as quasis, of which the last and only the last is the tail,
and its expressions, in source order: one quasi more than expressions. -/
theorem tpl_convert_partial (t : Template) (hx : ∀ e ∈ t.exprs, ∀ s, e ≠ .str s) (es : List Elem) (h : tplExpr t.items = some es) :
    tplLiteral es = (quasisOf t.texts, t.exprs) ∧ (tplLiteral es).1.length = (tplLiteral es).2.length + 1 := by
  have h1 := tplLoop_items t.rest t.head [] []
  rw [List.append_nil] at h1
  have he : es = elemsFrom t.head t.rest := by
    have : tplExpr t.items = some (elemsFrom t.head t.rest) := by
      show (tplLoop (Template.itemsFrom t.head t.rest) []).map (·.1) = _
      rw [h1]; rfl
    rw [this] at h
    exact (Option.some.inj h).symm
  have h2 := litLoop_elems (elemsFrom t.head t.rest).length t.rest t.head 0 [] []
    (fun x hx' s => hx x.1 (List.mem_map.mpr ⟨x, hx', rfl⟩) s) (by omega)
  rw [List.nil_append, List.nil_append] at h2
  have h3 : tplLiteral es = (quasisOf t.texts, t.exprs) := by rw [he, tplLiteral, h2]; rfl
  refine ⟨h3, ?_⟩
  rw [h3]
  have hq : ∀ l : List String, (quasisOf l).length = l.length := by
    intro l
    induction l with
    | nil => rfl
    | cons a l ih =>
      cases l with
      | nil => rfl
      | cons b l => rw [quasisOf, List.length_cons, ih]; simp only [List.length_cons]
  rw [hq]
  simp [Template.texts, Template.exprs]

/-- **C54, parsing**.  The parser accepts exactly the templates. -/
theorem tpl_parse (items : List Item) (es : List Elem) (more : List Item) :
    tplLoop items [] = some (es, more) ↔ ∃ t : Template, items = t.items ++ more ∧ es = elemsFrom t.head t.rest := by
  constructor
  · intro h
    obtain ⟨head, rest, h1, h2⟩ := tplLoop_sound _ items [] es more (Nat.le_refl _) h
    exact ⟨⟨head, rest⟩, h1, by simpa using h2⟩
  · rintro ⟨t, h1, h2⟩
    rw [h1, Template.items, tplLoop_items, h2, List.nil_append]

example : (tplExpr (Template.mk "a" [(.other 1, ""), (.other 2, "b")]).items).map tplLiteral =
    some ([⟨"a", false⟩, ⟨"", false⟩, ⟨"b", true⟩], [.other 1, .other 2]) := by
  simp [Template.items, Template.itemsFrom, tplExpr, tplLoop, tplLiteral, litLoop]

/-- **C54 is violated** by `` `a${"b"}c` ``: the expression becomes a quasi. -/
theorem string_expr_violated : (tplExpr (Template.mk "a" [(.str "b", "c")]).items).map tplLiteral =
    some ([⟨"a", false⟩, ⟨"b", false⟩, ⟨"c", true⟩], []) := by
  simp [Template.items, Template.itemsFrom, tplExpr, tplLoop, tplLiteral, litLoop]

end Mole.Estree
