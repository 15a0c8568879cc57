import Verif.Parser.ModsBlock
/-!
# Modifiers of class members (C87)

*Every member of a TypeScript class gets the name and the modifiers written before it, and what may not be written is an error.*
-/
namespace Mole.Parser.Mods

/-- The tokens of words on one line. -/
def words (ms : List Word) : List Tok := ms.map fun w => ⟨.word w, false⟩

/-! ## Helper lemmas -/

theorem distinct_of_order {ms : List Word} (hm : ∀ w ∈ ms, w.kind ≠ none) (h : inOrder ms = true) : Distinct ms := by
  intro l w r e
  subst e
  have := hm w (by simp)
  cases hk : w.kind with
  | none => exact (this hk).elim
  | some k =>
    refine ⟨k, rfl, Bool.eq_false_iff.2 fun hh => ?_⟩
    rw [inOrder_dup hk r hh] at h
    cases h

theorem order_checked_all : chk (fun ms => !inOrder ms || orderChecked ms) 9 [] = true := by decide +kernel

theorem order_checked {ms : List Word} (hd : Distinct ms) (h : inOrder ms = true) : orderChecked ms = true := by
  have := chk_sound _ 9 [] ms order_checked_all hd
  simpa [h] using this

theorem split_words (n : Nat) (r : List Tok) : ∀ (ms : List Word) (st : Bool), (∀ w ∈ ms, w.kind ≠ none) → inOrder ms = true →
    (st = true → has 0 ms = false) → split st (words ms ++ ⟨.word (.name n), false⟩ :: r) = (ms, ⟨.word (.name n), false⟩ :: r)
  | [], st, _, _, _ => by simp [words, split, isMod]
  | w :: ms, st, hm, ho, hs => by
    rw [inOrder, Bool.and_eq_true, List.all_eq_true] at ho
    have hst : (st || w == .static) = true → has 0 ms = false := by
      intro h
      rw [Bool.or_eq_true, beq_iff_eq] at h
      rcases h with h | rfl
      · have := hs h
        rw [has_cons, Bool.or_eq_false_iff] at this
        exact this.2
      · apply Bool.eq_false_iff.2
        intro hh
        obtain ⟨v, hv, hv'⟩ := List.any_eq_true.1 hh
        have := ho.1 v hv
        rw [before_same (k := 0) rfl (by simpa using hv')] at this
        cases this
    have ih := split_words n r ms (st || w == .static) (fun v hv => hm v (.tail _ hv)) ho.2 hst
    have hh : ∃ v, head (words ms ++ ⟨.word (.name n), false⟩ :: r) = ⟨.word v, false⟩ := by
      cases ms with
      | nil => exact ⟨_, rfl⟩
      | cons v l => exact ⟨v, rfl⟩
    obtain ⟨v, hv⟩ := hh
    have him : isMod st w ⟨.word v, false⟩ = true := by
      cases w with
      | name n => exact (hm _ (.head _) rfl).elim
      | static =>
        cases st with
        | false => rfl
        | true => simp [has, Word.kind] at hs
      | _ => rfl
    have e : words (w :: ms) ++ ⟨.word (.name n), false⟩ :: r = ⟨.word w, false⟩ :: (words ms ++ ⟨.word (.name n), false⟩ :: r) := rfl
    rw [e]
    simp only [split, hv, him, if_true, ih]

/-! ## The property -/

/-- **C87, partial.**  Where none of the known exceptions is met (`Regular`), what is read is what is meant: the member has the name
and the modifiers written, a static block is one, and what may not be written is an error.  Missing: the exceptions, each of which has
a theorem of its own below. -/
theorem member_read_partial (cls : Cls) (ts : List Tok) (hr : Regular ts = true) : classElem cls ts = want cls ts := elem_want hr

/-- `public static override readonly x;` in a class that extends another. -/
example : Regular (words [.acc .pub, .static, .override, .readonly, .name 0] ++ [⟨.stop, false⟩]) = true ∧
    classElem ⟨false, true⟩ (words [.acc .pub, .static, .override, .readonly, .name 0] ++ [⟨.stop, false⟩]) =
      .member (.word (.name 0)) false { acc := some .pub, static := true, override := true, readonly := true } [⟨.stop, false⟩] := by
  decide

/-- `readonly(){}`, `static {`, `abstract static x;`, `override` on a line of its own. -/
example : (Regular [⟨.word .readonly, false⟩, ⟨.paren, false⟩] = true ∧
      classElem ⟨false, false⟩ [⟨.word .readonly, false⟩, ⟨.paren, false⟩] = .member (.word .readonly) true {} [⟨.paren, false⟩]) ∧
    (Regular [⟨.word .static, false⟩, ⟨.braceL, false⟩] = true ∧
      classElem ⟨false, false⟩ [⟨.word .static, false⟩, ⟨.braceL, false⟩] = .block) ∧
    (Regular (words [.abstract, .static, .name 0] ++ [⟨.stop, false⟩]) = true ∧
      classElem ⟨true, true⟩ (words [.abstract, .static, .name 0] ++ [⟨.stop, false⟩]) = .err) ∧
    (Regular [⟨.word .override, false⟩, ⟨.word (.name 0), true⟩] = true ∧
      classElem ⟨false, false⟩ [⟨.word .override, false⟩, ⟨.word (.name 0), true⟩] =
        .member (.word .override) false {} [⟨.word (.name 0), true⟩]) := by decide

/-- **C87, partial.**  A field with an ordinary name keeps every modifier before it, whatever they are, if they are in order and the
class may have such a member; nothing else is noted of it. -/
theorem field_kept_partial (cls : Cls) (ms : List Word) (n : Nat) (r : List Tok) (hm : ∀ w ∈ ms, w.kind ≠ none)
    (ho : inOrder ms = true) (ha : Word.abstract ∈ ms → cls.abstract = true) (hv : Word.override ∈ ms → cls.ext = true) :
    classElem cls (words ms ++ ⟨.word (.name n), false⟩ :: ⟨.stop, false⟩ :: r) =
      .member (.word (.name n)) false (said ms) (⟨.stop, false⟩ :: r) := by
  have hs := split_words n (⟨.stop, false⟩ :: r) ms false hm ho (fun h => by cases h)
  have hoc := order_checked (distinct_of_order hm ho) ho
  have hr : Regular (words ms ++ ⟨.word (.name n), false⟩ :: ⟨.stop, false⟩ :: r) = true := by
    simp [Regular, hs, hoc, Word.kind, afterMark, head]
  rw [member_read_partial cls _ hr]
  have hal : allowed cls (.word (.name n)) false ms = true := by
    simp only [allowed, ho, Bool.false_and, Bool.not_false, Bool.true_and]
    by_cases h1 : Word.abstract ∈ ms <;> by_cases h2 : Word.override ∈ ms <;> simp [h1, h2, ha, hv]
  simp only [want, hs]
  simp [afterMark, named, head, meant, hal]

example : (∀ w ∈ [Word.acc .pro, .abstract, .override, .readonly], w.kind ≠ none) ∧
    inOrder [.acc .pro, .abstract, .override, .readonly] = true := by decide

/-- **C87, partial.**  So does a method, which may be neither `readonly` nor `declare`. -/
theorem method_kept_partial (cls : Cls) (ms : List Word) (n : Nat) (r : List Tok) (hm : ∀ w ∈ ms, w.kind ≠ none)
    (ho : inOrder ms = true) (ha : Word.abstract ∈ ms → cls.abstract = true) (hv : Word.override ∈ ms → cls.ext = true) :
    classElem cls (words ms ++ ⟨.word (.name n), false⟩ :: ⟨.paren, false⟩ :: r) =
      if Word.readonly ∈ ms ∨ Word.declare ∈ ms then .err
      else .member (.word (.name n)) true (said ms) (⟨.paren, false⟩ :: r) := by
  have hs := split_words n (⟨.paren, false⟩ :: r) ms false hm ho (fun h => by cases h)
  have hoc := order_checked (distinct_of_order hm ho) ho
  have hr : Regular (words ms ++ ⟨.word (.name n), false⟩ :: ⟨.paren, false⟩ :: r) = true := by
    simp [Regular, hs, hoc, Word.kind, afterMark, head]
  rw [member_read_partial cls _ hr]
  have hal : allowed cls (.word (.name n)) true ms = !(ms.contains .readonly || ms.contains .declare) := by
    simp only [allowed, ho, Bool.true_and]
    by_cases h1 : Word.abstract ∈ ms <;> by_cases h2 : Word.override ∈ ms <;> simp [h1, h2, ha, hv]
  simp only [want, hs]
  by_cases h1 : Word.readonly ∈ ms <;> by_cases h2 : Word.declare ∈ ms <;> simp [afterMark, named, head, meant, hal, h1, h2]

/-- **C87, partial.**  Modifiers before an ordinary name that are not in order are an error, but for the two orders that are not
checked. -/
theorem disorder_rejected_partial (cls : Cls) (ts : List Tok) (hr : Regular ts = true) (h : inOrder (split false ts).1 = false) :
    classElem cls ts = .err := (member_read_partial cls ts hr).trans (want_bad h)

/-- `override public x;` and `readonly readonly x;`. -/
example : (Regular (words [.override, .acc .pub, .name 0] ++ [⟨.stop, false⟩]) = true ∧
      inOrder (split false (words [.override, .acc .pub, .name 0] ++ [⟨.stop, false⟩])).1 = false) ∧
    (Regular (words [.readonly, .readonly, .name 0] ++ [⟨.stop, false⟩]) = true ∧
      inOrder (split false (words [.readonly, .readonly, .name 0] ++ [⟨.stop, false⟩])).1 = false) := by decide

/-- **C87, partial.**  For every sequence of tokens and every class: a static block is only read at `static {`, with no modifier before or
between, but for one of four words between the two that is followed by a line break.  Missing: this exception, see
`block_word_violated`. -/
theorem block_only_partial (cls : Cls) (ts : List Tok) (h : classElem cls ts = .block) :
    ∃ b r, ts = ⟨.word .static, b⟩ :: r ∧ ((head r).k = .braceL ∨
      ∃ w b' r', r = ⟨.word w, b'⟩ :: r' ∧ (w = .abstract ∨ w = .readonly ∨ w = .override ∨ w = .declare) ∧
        head r' = ⟨.braceL, true⟩) := block_shape h

/-- `static⏎{` is one; `static private⏎{`, `public static {` and `static readonly {` are not. -/
example : classElem ⟨false, false⟩ [⟨.word .static, false⟩, ⟨.braceL, true⟩] = .block ∧
    classElem ⟨false, false⟩ [⟨.word .static, false⟩, ⟨.word (.acc .pri), false⟩, ⟨.braceL, true⟩] = .err ∧
    classElem ⟨false, false⟩ [⟨.word (.acc .pub), false⟩, ⟨.word .static, false⟩, ⟨.braceL, false⟩] = .err ∧
    classElem ⟨false, false⟩ [⟨.word .static, false⟩, ⟨.word .readonly, false⟩, ⟨.braceL, false⟩] = .err := by decide

/-! ## Where the code does otherwise -/

/-- **C87, violated.**  `class A { static readonly⏎{} }` is accepted as a static block, and the word `readonly`, a field by the line break
behind it, is lost. -/
theorem block_word_violated : want ⟨false, false⟩ [⟨.word .static, false⟩, ⟨.word .readonly, false⟩, ⟨.braceL, true⟩] =
      .member (.word .readonly) false { static := true } [⟨.braceL, true⟩] ∧
    classElem ⟨false, false⟩ [⟨.word .static, false⟩, ⟨.word .readonly, false⟩, ⟨.braceL, true⟩] = .block := by decide

/-- **C87, violated.**  `abstract class A { readonly public abstract x; }` is accepted: the order of an access modifier and `readonly`
is not looked at if `abstract` is there, too. -/
theorem access_order_violated : want ⟨true, false⟩ (words [.readonly, .acc .pub, .abstract, .name 0] ++ [⟨.stop, false⟩]) = .err ∧
    classElem ⟨true, false⟩ (words [.readonly, .acc .pub, .abstract, .name 0] ++ [⟨.stop, false⟩]) =
      .member (.word (.name 0)) false { acc := some .pub, abstract := true, readonly := true } [⟨.stop, false⟩] := by decide

/-- **C87, violated.**  `abstract class A { private abstract x; }` is accepted. -/
theorem private_abstract_violated : want ⟨true, false⟩ (words [.acc .pri, .abstract, .name 0] ++ [⟨.stop, false⟩]) = .err ∧
    classElem ⟨true, false⟩ (words [.acc .pri, .abstract, .name 0] ++ [⟨.stop, false⟩]) =
      .member (.word (.name 0)) false { acc := some .pri, abstract := true } [⟨.stop, false⟩] := by decide

/-- **C87, violated.**  In `class A { private; }` the field named `private` is said to be private. -/
theorem access_name_violated : want ⟨false, false⟩ (words [.acc .pri] ++ [⟨.stop, false⟩]) =
      .member (.word (.acc .pri)) false {} [⟨.stop, false⟩] ∧
    classElem ⟨false, false⟩ (words [.acc .pri] ++ [⟨.stop, false⟩]) =
      .member (.word (.acc .pri)) false { acc := some .pri } [⟨.stop, false⟩] := by decide

/-- **C87, violated.**  In `class A { static readonly() {} }` the method is not static. -/
theorem static_lost_violated : want ⟨false, false⟩ (words [.static, .readonly] ++ [⟨.paren, false⟩]) =
      .member (.word .readonly) true { static := true } [⟨.paren, false⟩] ∧
    classElem ⟨false, false⟩ (words [.static, .readonly] ++ [⟨.paren, false⟩]) =
      .member (.word .readonly) true {} [⟨.paren, false⟩] := by decide

/-- **C87, violated.**  `class A { readonly declare() {} }` is accepted, and the method is not said to be `readonly`. -/
theorem readonly_lost_violated : want ⟨false, false⟩ (words [.readonly, .declare] ++ [⟨.paren, false⟩]) = .err ∧
    classElem ⟨false, false⟩ (words [.readonly, .declare] ++ [⟨.paren, false⟩]) =
      .member (.word .declare) true {} [⟨.paren, false⟩] := by decide

/-- **C87, violated.**  `class A { static readonly = 1 }` is rejected. -/
theorem static_field_violated : want ⟨false, false⟩ (words [.static, .readonly] ++ [⟨.stop, false⟩]) =
      .member (.word .readonly) false { static := true } [⟨.stop, false⟩] ∧
    classElem ⟨false, false⟩ (words [.static, .readonly] ++ [⟨.stop, false⟩]) = .err := by decide

/-- **C87, violated.**  `class A { static readonly⏎x; }` has two fields, `readonly` and `x`; one static field `x` is read, and the word
`readonly` is gone. -/
theorem line_violated : want ⟨false, false⟩ [⟨.word .static, false⟩, ⟨.word .readonly, false⟩, ⟨.word (.name 0), true⟩, ⟨.stop, false⟩] =
      .member (.word .readonly) false { static := true } [⟨.word (.name 0), true⟩, ⟨.stop, false⟩] ∧
    classElem ⟨false, false⟩ [⟨.word .static, false⟩, ⟨.word .readonly, false⟩, ⟨.word (.name 0), true⟩, ⟨.stop, false⟩] =
      .member (.word (.name 0)) false { static := true } [⟨.stop, false⟩] := by decide

/-- **C87, violated.**  `class A { [k] x; }` is accepted: nothing need be between the two. -/
theorem separator_violated : want ⟨false, false⟩ [⟨.key false, false⟩, ⟨.word (.name 0), false⟩] = .err ∧
    classElem ⟨false, false⟩ [⟨.key false, false⟩, ⟨.word (.name 0), false⟩] =
      .member (.key false) false {} [⟨.word (.name 0), false⟩] := by decide

/-- **C87, violated.**  `class A { readonly [k]() {} }` and `class A { declare *g() {} }` are accepted. -/
theorem method_modifier_violated : (want ⟨false, false⟩ [⟨.word .readonly, false⟩, ⟨.key false, false⟩, ⟨.paren, false⟩] = .err ∧
      classElem ⟨false, false⟩ [⟨.word .readonly, false⟩, ⟨.key false, false⟩, ⟨.paren, false⟩] =
        .member (.key false) true { readonly := true } [⟨.paren, false⟩]) ∧
    (want ⟨false, false⟩ [⟨.word .declare, false⟩, ⟨.star, false⟩] = .err ∧
      classElem ⟨false, false⟩ [⟨.word .declare, false⟩, ⟨.star, false⟩] = .member .gen true { declare := true } []) := by decide

/-- **C87, violated.**  `class A { readonly m⏎() {} }` is accepted, though `readonly m() {}` is not. -/
theorem method_line_violated : want ⟨false, false⟩ [⟨.word .readonly, false⟩, ⟨.word (.name 0), false⟩, ⟨.paren, true⟩] = .err ∧
    classElem ⟨false, false⟩ [⟨.word .readonly, false⟩, ⟨.word (.name 0), false⟩, ⟨.paren, true⟩] =
      .member (.word (.name 0)) true { readonly := true } [⟨.paren, true⟩] := by decide

/-- **C87, violated.**  `class A { declare #k; }` is accepted. -/
theorem declare_private_violated : want ⟨false, false⟩ [⟨.word .declare, false⟩, ⟨.key true, false⟩, ⟨.stop, false⟩] = .err ∧
    classElem ⟨false, false⟩ [⟨.word .declare, false⟩, ⟨.key true, false⟩, ⟨.stop, false⟩] =
      .member (.key true) false { declare := true } [⟨.stop, false⟩] := by decide

/-- **C87, violated.**  `class A { () {} }` is accepted: a method without a name. -/
theorem nameless_violated : want ⟨false, false⟩ [⟨.paren, false⟩] = .err ∧
    classElem ⟨false, false⟩ [⟨.paren, false⟩] = .member .empty true {} [⟨.paren, false⟩] := by decide

/-- **C87, violated.**  `class A { readonly? x; }` is accepted as two fields. -/
theorem optional_violated : want ⟨false, false⟩ [⟨.word .readonly, false⟩, ⟨.mark, false⟩, ⟨.word (.name 0), false⟩] = .err ∧
    classElem ⟨false, false⟩ [⟨.word .readonly, false⟩, ⟨.mark, false⟩, ⟨.word (.name 0), false⟩] =
      .member (.word .readonly) false {} [⟨.word (.name 0), false⟩] := by decide

end Mole.Parser.Mods
