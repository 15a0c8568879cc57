import Verif.Parser.JsxComplete
import Verif.Parser.JsxEq
import Verif.Lexer.ScanProps

/-! # C79: JSX elements -/

namespace Mole.Parser.Jsx
open Mole.Lexer (codes)

variable {E : Type}

/-- The text that is left: a token read ahead counts as not taken. -/
def left (s : S) : List Nat :=
  match s.buf with
  | some (_, b) => b
  | none => s.rest

/-- **C79** (partial: the flag `true` lets in what is not JSX and accepted, see the rules of `ElemAt` and the theorems below).  If a JSX
element is accepted, then what was taken of the text is written by the rules of the elements, and its tree is the one of the rules.  The
modes of the lexer are those from before, but for a brace that has been read ahead. -/
theorem accepted_partial {C : Cfg E} (hC : C.Leaves) {n : Nat} {ms : List Mode} (hm : ms ≠ []) {s : List Nat} {x : J E ⊕ Option Name} {s' : S}
    (h : parse C n ms s = .ok x s') :
    ∃ e, x = .inl e ∧ ElemAt C true e ('<'.toNat :: s) (left s') ∧
      (s'.buf = none → s'.modes = ms) ∧
      (∀ t b, s'.buf = some (t, b) → t ≠ .braceL → s'.modes = if t = .braceR then pop ms else ms) ∧
      ∀ b, s'.buf = some (.braceL, b) → s'.modes.tail = ms := by
  have := (specs hC n).jsx true false ms ⟨some (.lt, 60 :: s), s, ms, []⟩ _ hm rfl rfl
  unfold Tr at this
  unfold parse at h
  rw [h] at this
  cases x with
  | inr c => exact absurd this.1 (by simp)
  | inl e =>
    obtain ⟨h1, h2, -, -⟩ := this
    refine ⟨e, rfl, h2, h1.1, ?_, ?_⟩
    · intro t b hb ht
      obtain ⟨-, ⟨-, h4, h5⟩, -⟩ := h1.2 t b hb
      split
      · exact h4 ‹_›
      · exact h5 ht ‹_›
    · intro b hb
      obtain ⟨-, ⟨h3, -, -⟩, -⟩ := h1.2 _ b hb
      obtain ⟨x, hx⟩ := h3 rfl
      rw [hx]
      rfl

/-- `x` is a part of a tree. -/
inductive PartOf (x : J E) : J E → Prop
  | here : PartOf x x
  | attrs {n as ks c a} : a ∈ as → PartOf x a → PartOf x (.elem n as ks c)
  | kids {n as ks c k} : k ∈ ks → PartOf x k → PartOf x (.elem n as ks c)
  | val {n v} : PartOf x v → PartOf x (.attr n (some v))

/-- Some rule is about it. -/
inductive Wf (C : Cfg E) : J E → Prop
  | elem {e s r} : ElemAt C true e s r → Wf C e
  | attr {e s r} : AttrAt C true e s r → Wf C e
  | box {e s r} : BoxAt C true e s r → Wf C e
  | str {v} : Wf C (.str v)
  | text {v} : Wf C (.text v)

theorem attrs_wf {C : Cfg E} {l : List (J E)} : ∀ {s r : List Nat}, AttrsAt C true l s r → ∀ a ∈ l, ∃ t u, AttrAt C true a t u := by
  induction l with
  | nil => intro s r _ a ha; cases ha
  | cons x l ih =>
    intro s r h a ha
    cases h with
    | cons h1 h2 h3 =>
      rcases List.mem_cons.mp ha with rfl | ha
      · exact ⟨_, _, h2⟩
      · exact ih h3 a ha

theorem kids_wf {C : Cfg E} {l : List (J E)} : ∀ {s r : List Nat}, KidsAt C true l s r → ∀ a ∈ l, Wf C a := by
  induction l with
  | nil => intro s r _ a ha; cases ha
  | cons x l ih =>
    intro s r h a ha
    have both : ∀ {t}, KidsAt C true l t r → Wf C x → Wf C a := by
      intro t h1 h2
      rcases List.mem_cons.mp ha with rfl | ha
      · exact h2
      · exact ih h1 a ha
    cases h with
    | text h1 h2 => exact both h2 .text
    | box h1 h2 => exact both h2 (.box h1)
    | elem h1 h2 => exact both h2 (.elem h1)

theorem partOf_wf {C : Cfg E} {x e : J E} (h : PartOf x e) (hw : Wf C e) : Wf C x := by
  induction h with
  | here => exact hw
  | attrs ha _ ih =>
    cases hw with
    | attr h => cases h
    | box h => cases h
    | elem h =>
      cases h with
      | closed _ _ _ h => obtain ⟨_, _, h⟩ := attrs_wf h _ ha; exact ih (.attr h)
      | pair _ _ _ h => obtain ⟨_, _, h⟩ := attrs_wf h _ ha; exact ih (.attr h)
      | fragment => cases ha
  | kids hk _ ih =>
    cases hw with
    | attr h => cases h
    | box h => cases h
    | elem h =>
      cases h with
      | closed => cases hk
      | pair _ _ _ _ _ h => exact ih (kids_wf h _ hk)
      | fragment _ h => exact ih (kids_wf h _ hk)
  | val _ ih =>
    cases hw with
    | elem h => cases h
    | box h => cases h
    | attr h =>
      cases h with
      | str => exact ih .str
      | box _ _ _ _ h => exact ih (.box h)
      | elem _ _ _ _ _ h => exact ih (.elem h)

/-- **C79** The tags of an accepted element match, and so do those of all the elements in it: after `<a>` comes `</a>` and after `<>`
comes `</>`. -/
theorem tags_match {C : Cfg E} (hC : C.Leaves) {n : Nat} {ms : List Mode} (hm : ms ≠ []) {s : List Nat} {e : J E} {s' : S}
    (h : parse C n ms s = .ok (.inl e) s') (o c : Option Name) (as ks : List (J E)) (hp : PartOf (.elem o as ks (some c)) e) :
    (o = none ∧ c = none) ∨ ∃ a b, o = some a ∧ c = some b ∧ a.path = b.path := by
  obtain ⟨e', he, h1, -⟩ := accepted_partial hC hm h
  cases he
  cases partOf_wf hp (.elem h1) with
  | attr h => cases h
  | box h => cases h
  | elem h =>
    cases h with
    | pair _ _ _ _ _ _ _ h => exact .inr ⟨_, _, rfl, rfl, h⟩
    | fragment => exact .inl ⟨rfl, rfl⟩

/-- **C79** (partial: names that are keywords, block comments in tags and elements as values of attributes are not in `ElemAt C false …`,
JSX has them; see the theorems below).  Each text that begins with an element is accepted, with the tree of the rules and with what
follows left, if no other element follows. -/
theorem complete_partial {C : Cfg E} (hC : C.Leaves) (hS : C.Std) {n : Nat} {ms : List Mode} (hm : ms ≠ []) (ht : top ms = .none)
    {s r : List Nat} {e : J E} (h : ElemAt C false e ('<'.toNat :: s) r) (hr : ∀ u, ¬Triv r ('<'.toNat :: u))
    (hn : 3 * s.length + 2 < n) : ∃ s', parse C n ms s = .ok (.inl e) s' ∧ left s' = r := by
  have hf := (specs hC n).jsx true false ms ⟨some (.lt, 60 :: s), s, ms, []⟩ _ hm rfl rfl
  have := (runs hS n).elem true false ms ⟨some (.lt, 60 :: s), s, ms, []⟩ _ e r hm rfl rfl h ?_
  · unfold Rn at this
    unfold Tr at hf
    unfold parse
    cases hp : (rec C n).jsx true false ⟨some (.lt, 60 :: s), s, ms, []⟩ with
    | ok x s' =>
      simp only [hp] at this
      obtain ⟨rfl, hs⟩ := this
      refine ⟨s', rfl, ?_⟩
      rcases hs with ⟨h1, h2, -⟩ | ⟨_, _, _, -, -, rfl⟩
      · simp [left, h1, h2]
      · rfl
    | err => simp [hp] at this
    | hang => simp [hp] at this
    | fuel =>
      simp only [hp] at hf
      omega
  · rintro -
    rw [ht]
    cases hl : lex C .none r with
    | mk w p =>
      obtain ⟨t, r'⟩ := p
      rintro e
      simp only at e
      subst e
      obtain ⟨-, s1, -, g1, g2, -⟩ := lex_ok (by decide) hl (by decide)
      rw [TokOk] at g2
      subst g2
      exact hr r' (g1 (by decide))

/-- **C79** (partial: it may also go on for ever, see `hangs_violated`).  Reading an element ends, with calls that are nested at most
three times as deep as the text is long: if it does not end, then the text has a `>` or `}` and after it, perhaps with white space
between them, a `}`. -/
theorem ends_partial {C : Cfg E} (hC : C.Leaves) {n : Nat} {ms : List Mode} (hm : ms ≠ []) {s : List Nat}
    (hn : 3 * s.length + 2 < n) :
    parse C n ms s ≠ .fuel ∧
    (parse C n ms s = .hang → ∃ u c w v, s = u ++ c :: (w ++ '}'.toNat :: v) ∧ (c = '>'.toNat ∨ c = '}'.toNat) ∧ ∀ x ∈ w, Span.White x) := by
  have := (specs hC n).jsx true false ms ⟨some (.lt, 60 :: s), s, ms, []⟩ _ hm rfl rfl
  unfold Tr at this
  unfold parse
  constructor
  · intro h
    simp only [h] at this
    omega
  · intro h
    simp only [h] at this
    exact this

/-! ## Examples, and what goes wrong -/

/-- An expression is a word of small letters. -/
def exExpr (s : List Nat) : Option (List Nat × List Nat) :=
  let v := s.takeWhile (fun c => 97 ≤ c && c ≤ 122)
  if v = [] then none else some (v, s.drop v.length)

def exCfg : Cfg (List Nat) := ⟨Lexer.exCfg, false, false, false, fun _ => none, fun _ => true, exExpr, exExpr⟩

theorem exCfg_leaves : exCfg.Leaves := by
  intro s e r h
  have : exExpr s = some (e, r) := h.elim id id
  simp only [exExpr] at this
  split at this
  · cases this
  · cases this
    exact List.drop_suffix _ _

theorem exCfg_std : exCfg.Std := by
  refine ⟨?_, rfl, rfl⟩
  intro c hc hw
  have hlt : c < 0x80 := by
    apply Classical.byContradiction
    intro h
    simp [Lexer.isIdStart, exCfg, Lexer.exCfg, h] at hc
  rw [← Span.isSpace_iff] at hw
  have : ∀ c < 0x80, Lexer.isIdStart exCfg.scan.tables c = true → Span.isSpace c = false := by decide +kernel
  rw [this c hlt hc] at hw
  cases hw

/-- What is read, with the rest of the text. -/
def tree (s : String) : Option (J (List Nat) × List Nat) :=
  match parse exCfg 200 [.none] ((codes s).tail) with
  | .ok (.inl e) s' => some (e, left s')
  | _ => none

def hangs (s : String) : Prop := parse exCfg 200 [.none] ((codes s).tail) = .hang
def rejected (s : String) : Prop := parse exCfg 200 [.none] ((codes s).tail) = .err

-- attributes of all kinds, children of all kinds, and a fragment in it
example : tree "<a b='c' d-e={x} {...y} f><c.d/>hi {z} { }<> </></a>;" =
    some (.elem (some (.id (codes "a")))
      [.attr (.id (codes "b")) (some (.str (codes "c"))), .attr (.id (codes "d-e")) (some (.box (codes "x"))),
        .spreadAttr (codes "y"), .attr (.id (codes "f")) none]
      [.elem (some (.member (.id (codes "c")) (codes "d"))) [] [] none, .text (codes "hi "), .box (codes "z"), .text (codes " "),
        .boxEmpty, .elem none [] [.text (codes " ")] (some none)]
      (some (some (.id (codes "a")))), codes ";") := by decide +kernel

-- the hypotheses of `complete_partial` hold for `<a b="c">{x}</a>;`
theorem ex_id (c : Nat) (r : List Nat) (hc : Lexer.isIdStart exCfg.scan.tables c = true ∧ c < 0x80 ∧ c ≠ 92)
    (hk : Lexer.classify ⟨false, true, false, false⟩ [c] false = .name)
    (hr : ∀ d, r.head? = some d → Lexer.isIdStart exCfg.scan.tables d = false ∧ Lexer.isIdPart exCfg.scan.tables d = false ∧ d ≠ 45) :
    PathAt exCfg false (.id [c]) (c :: r) r := by
  refine .member (.id ⟨[c], false, rfl, ?_, hk, fun _ => hr⟩)
  have : Lexer.appendRune c = c := by
    unfold Lexer.appendRune
    rw [if_neg]
    simp
    omega
  have h := Lexer.NameAt.ch (T := exCfg.scan.tables) (jsx := true) hc.1 hc.2.2 (by omega) .nil
  rwa [this] at h

theorem ex_elem : ElemAt exCfg false
    (.elem (some (.id (codes "a"))) [.attr (.id (codes "b")) (some (.str (codes "c")))] [.box (codes "x")] (some (some (.id (codes "a")))))
    (codes "<a b=\"c\">{x}</a>;") (codes ";") := by
  have follow : ∀ (c : Nat) (r : List Nat), (Lexer.isIdStart exCfg.scan.tables c = false ∧ Lexer.isIdPart exCfg.scan.tables c = false ∧ c ≠ 45) →
      ∀ d, (c :: r).head? = some d → Lexer.isIdStart exCfg.scan.tables d = false ∧ Lexer.isIdPart exCfg.scan.tables d = false ∧ d ≠ 45 := by
    rintro c r h d e
    cases e
    exact h
  have none_ : ∀ {c : Nat} {r : List Nat}, Span.isSpace c = false → c ≠ 47 →
      Lexer.lexTrivia ((c :: r).length + 1) false (c :: r) = some (.ok (false, c :: r)) := by
    intro c r h h1
    cases r <;> simp [Lexer.lexTrivia, Lexer.skipSpaceR, h, h1]
  have triv : ∀ {c : Nat} {r : List Nat}, Span.isSpace c = false → c ≠ 47 → Triv (c :: r) (c :: r) := by
    intro c r h h1
    exact ⟨false, (Lexer.lexTrivia_iff _ _ _ _ _ (Nat.lt_succ_self _)).mp (none_ h h1)⟩
  refine .pair (s1 := codes "a b=\"c\">{x}</a>;") (s2 := codes " b=\"c\">{x}</a>;") (s4 := codes ">{x}</a>;") (s5 := codes "{x}</a>;")
    (s6 := codes "</a>;") .nil (ex_id 97 _ (by decide) (by decide) (follow _ _ (by decide))) .none ?_ .nil ?_ ?_ rfl
  · refine .cons (t := codes "b=\"c\">{x}</a>;") (.ws (by rw [← Span.isSpace_iff]; decide) .nil) ?_ .nil
    exact .str (ex_id 98 (codes "=\"c\">{x}</a>;") (by decide) (by decide) (follow _ _ (by decide))) .none .nil (triv (by decide) (by decide))
      (.inl rfl) rfl (by decide)
  · refine .box (t := codes "</a>;") (.expr (e := codes "x") (t := codes "}</a>;") ?_ (by decide) (triv (by decide) (by decide))) .nil
    rintro - u
    constructor <;>
    · rintro ⟨f, h⟩
      have h := (Lexer.lexTrivia_iff _ _ _ _ _ (Nat.lt_succ_self _)).mpr h
      have h' := none_ (c := 120) (r := codes "}</a>;") (by decide) (by decide)
      have := h.symm.trans h'
      simp at this
  · exact .name (s1 := codes "a>;") .nil (by decide) .nil (ex_id 97 (codes ">;") (by decide) (by decide) (follow _ _ (by decide))) .none .nil

-- the hypotheses of all the theorems above hold together
example : ∃ s', parse exCfg 60 [.none] (codes "a b=\"c\">{x}</a>;") = .ok (.inl (.elem (some (.id (codes "a")))
    [.attr (.id (codes "b")) (some (.str (codes "c")))] [.box (codes "x")] (some (some (.id (codes "a")))))) s' ∧ left s' = codes ";" := by
  refine complete_partial exCfg_leaves exCfg_std (by simp) rfl ex_elem ?_ (by decide)
  rintro u ⟨f, h⟩
  have h := (Lexer.lexTrivia_iff _ _ _ _ _ (Nat.lt_succ_self _)).mpr h
  have h' : Lexer.lexTrivia ((codes ";").length + 1) false (codes ";") = some (.ok (false, codes ";")) := by rfl
  have := h.symm.trans h'
  simp at this
  rw [show codes ";" = [59] from rfl] at this
  simp at this

-- tags that do not match are rejected, also in an element
example : rejected "<a></b>" ∧ rejected "<a><b></a></b>" ∧ rejected "<></a>" ∧ rejected "<a.b></a.c>" ∧ rejected "<a/><b/>" := by
  unfold rejected
  decide +kernel

/-- **C79** (negative) Reading does not end: with a `}` between the tags the loop over the children goes on for ever. -/
theorem hangs_violated : hangs "<a>}</a>" ∧ hangs "<a>{x}}</a>" ∧ hangs "<><a/> } </>" := by
  unfold hangs
  decide +kernel

/-- **C79** (negative) An element after a name is taken for type arguments and is lost. -/
theorem dropped_violated : tree "<a <b c={x}/> />" = tree "<a />" ∧ tree "<a />" ≠ none := by decide +kernel

/-- **C79** (negative) An attribute with a `=` and no value is accepted; what should be the value is another attribute. -/
theorem missing_value_violated : tree "<a b=c/>" = tree "<a b c/>" ∧ tree "<a b=/>" = tree "<a b/>" ∧ tree "<a b/>" ≠ none := by
  decide +kernel

/-- **C79** (negative) The value of an attribute may be empty braces or `{...x}`. -/
theorem box_value_violated : tree "<a b={}/>" ≠ none ∧ tree "<a b={...x}/>" ≠ none := by decide +kernel

/-- **C79** (negative) Names in JSX may be keywords; they are rejected. -/
theorem keyword_name_violated : rejected "<a class='x'/>" ∧ rejected "<label for='x'/>" ∧ rejected "<var/>" ∧
    ¬rejected "<a clas='x'/>" := by
  unfold rejected
  decide +kernel

/-- **C79** (negative) Block comments in tags are rejected. -/
theorem comment_violated : rejected "<a /* c */ b/>" ∧ ¬rejected "<a // c\n b/>" := by
  unfold rejected
  decide +kernel

/-- **C79** (negative) After an element as the value of an attribute the next token is read as one outside of tags: a name with a hyphen
and `>>` are rejected. -/
theorem element_value_violated : rejected "<a b=<c/> d-e='f'/>" ∧ ¬rejected "<a b=<c/> de='f'/>" ∧ ¬rejected "<a b='c' d-e='f'/>" := by
  unfold rejected
  decide +kernel

end Mole.Parser.Jsx
