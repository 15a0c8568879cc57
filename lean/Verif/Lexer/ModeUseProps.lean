import Verif.Lexer.ModeUseLemmas

/-! # C71: the lexer knows where it is

Whether `}` closes a brace or continues a template, whether `010` is allowed and whether `await` is a keyword depends on the
place in the program.  `Spec.whereL` says for each such token where it is; `read` gives what the lexer takes it for, and
`none` if a brace is mistaken. -/

namespace Mole.Lexer.ModeUse

open Spec

/-- The items of a list. -/
def items : List Item → Items
  | [] => .nil
  | i :: r => .cons i (items r)

/-- A program in which the token is at each kind of place:
`010; { 010 } function f(010) { 010 } class A extends 010 { m() { 010 } } async function g() { await `${ {a: await} } ${await}` }`. -/
def sample : Items := items [.tok true, .braces (items [.tok true]), .fn false false false (items [.tok true]) (items [.tok true]),
  .cls (items [.tok true]) (items [.method false false .nil (items [.tok true])]),
  .fn true false false .nil (items [.tok true, .tpl (.cons (items [.braces (items [.tok true])]) (.cons (items [.tok true]) .nil))])]

/-- `function f(a) { "use strict"; b; 010; { 010 } } 010`. -/
def sampleDir : Items := items [.fn false false true (items [.tok false]) (items [.tok false, .tok true, .braces (items [.tok true])]),
  .tok true]

/-- In a program without generator functions each `}` is read as what it is.  Full property: in every program. -/
theorem braces_partial (strict dir : Bool) (p : Items) (h : eachL noGen p) : (read strict dir p).isSome := by
  obtain ⟨x, hx, _⟩ := leads_after dir p h false [] ⟨{ strict := strict }, []⟩ rfl
  rw [read, hx]; rfl

/-- In a program without generator functions, and in which no directive is followed at once by a token depending on it, each
token is taken for strict code exactly if it is in strict code.  Full property: in every program. -/
theorem strict_partial (strict dir : Bool) (p : Items) (hg : eachL noGen p) (hd : eachL plainDirective p)
    (h0 : dir = true → plainStart p) :
    (read strict dir p).map (·.map Prod.fst) = some ((whereL (strict || dir) false p).map Prod.fst) := by
  have h : eachL (Ok false) p := eachL_and p hg hd
  obtain ⟨o, h1, h2⟩ := read_agrees false strict dir p h h0
  rw [h1]
  simp only [Option.map_some, Option.some.injEq]
  clear h1 h h0
  generalize whereL (strict || dir) false p = w at h2
  induction h2 with
  | nil => rfl
  | cons h _ ih => simp [h.1, ih]

/-- If there are no async methods either, `await` is taken for a keyword wherever it is in an async function.  Full property: in
every program, and nowhere else. -/
theorem await_partial (strict dir : Bool) (p : Items) (hg : eachL noGen p) (hd : eachL plainDirective p)
    (hm : eachL noAsyncMethod p) (h0 : dir = true → plainStart p) :
    ∃ o, read strict dir p = some o ∧ o.length = (whereL (strict || dir) false p).length ∧
      ∀ (k : Nat) (w : Bool × Bool), (whereL (strict || dir) false p)[k]? = some w → w.2 = true → ∃ x, o[k]? = some x ∧ x.2 = true := by
  have h : eachL (Ok true) p := eachL_and3 p hg hd hm
  obtain ⟨o, h1, h2⟩ := read_agrees true strict dir p h h0
  refine ⟨o, h1, ?_⟩
  clear h1 h h0
  generalize whereL (strict || dir) false p = w at h2
  induction h2 with
  | nil => exact ⟨rfl, by simp⟩
  | cons h _ ih =>
    refine ⟨by simp [ih.1], fun k w hk hw => ?_⟩
    cases k with
    | zero =>
      simp only [List.getElem?_cons_zero, Option.some.injEq] at hk ⊢
      subst hk
      exact ⟨_, rfl, h.2 rfl hw⟩
    | succ k =>
      simp only [List.getElem?_cons_succ] at hk ⊢
      exact ih.2 k w hk hw

/-- In a program without async functions and methods `await` is never taken for a keyword; generators are allowed. -/
theorem no_async (strict dir : Bool) (p : Items) (h : eachL noAsync p) (o : List (Bool × Bool)) (hr : read strict dir p = some o) :
    ∀ x ∈ o, x.2 = false := by
  rw [read] at hr
  cases hx : run ⟨{ strict := strict }, []⟩ (afterDirective dir (evsL p)) with
  | none => rw [hx] at hr; cases hr
  | some x =>
    rw [hx] at hr
    simp only [Option.map_some, Option.some.injEq] at hr
    subst hr
    exact run_noneAsync ⟨rfl, by simp⟩ (noAdd_after (noAdd_evsL p h)) hx

/-! ## Not vacuous -/

example : eachL noGen sample ∧ eachL plainDirective sample ∧ eachL noAsyncMethod sample := by
  simp [sample, items, eachL, each, eachP, noGen, plainDirective, noAsyncMethod]
example : read false false sample = some [(false, false), (false, false), (false, false), (false, false), (true, false),
    (true, false), (false, true), (false, true), (false, true)] := by decide +kernel
example : whereL false false sample = [(false, false), (false, false), (false, false), (false, false), (true, false),
    (true, false), (false, true), (false, true), (false, true)] := by decide +kernel
example : eachL noGen sampleDir ∧ eachL plainDirective sampleDir ∧ plainStart sampleDir := by
  simp [sampleDir, items, eachL, each, noGen, plainDirective, plainStart, whereL, where_]
example : read false false sampleDir = some [(true, false), (true, false), (false, false)] := by decide +kernel
example : eachL noAsync sampleDir := by simp [sampleDir, items, eachL, each, noAsync]

/-! ## Where the code differs -/

/-- `` `${ {a: function*(){}} }` ``: the generator takes the mode of the object's brace off, so the `}` of the object is read as
the continuation of the template. -/
theorem generator_misread_violated : ∃ p, read false false p = none :=
  ⟨items [.tpl (.cons (items [.braces (items [.fn false true false .nil .nil])]) .nil)], by decide +kernel⟩

/-- `function* g() {} 010` in strict code: after the generator the code is no longer taken for strict. -/
theorem generator_strict_violated : ∃ p, whereL true false p = [(true, false)] ∧ read true false p = some [(false, false)] :=
  ⟨items [.fn false true false .nil .nil, .tok true], by decide +kernel, by decide +kernel⟩

/-- `"use strict"; 010`: the token after the directive is read before the directive takes effect. -/
theorem directive_token_violated : ∃ p, whereL true false p = [(true, false)] ∧ read false true p = some [(false, false)] :=
  ⟨items [.tok true], by decide +kernel, by decide +kernel⟩

/-- `"use strict"; {} 010`: if the next token opens a block the directive acts on that block only. -/
theorem directive_block_violated : ∃ p, whereL true false p = [(true, false)] ∧ read false true p = some [(false, false)] ∧
    eachL noGen p :=
  ⟨items [.braces .nil, .tok true], by decide +kernel, by decide +kernel, by simp [items, eachL, each, noGen]⟩

/-- `async function f() {} await`: after an async function `await` stays a keyword. -/
theorem await_leak_violated : ∃ p, whereL false false p = [(false, false)] ∧ read false false p = some [(false, true)] :=
  ⟨items [.fn true false false .nil .nil, .tok true], by decide +kernel, by decide +kernel⟩

/-- `{ async m() { await } }`: in an async method `await` is no keyword. -/
theorem async_method_violated : ∃ p, whereL false false p = [(false, true)] ∧ read false false p = some [(false, false)] :=
  ⟨items [.braces (items [.method true false .nil (items [.tok true])])], by decide +kernel, by decide +kernel⟩

end Mole.Lexer.ModeUse
