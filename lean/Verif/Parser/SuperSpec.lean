import Verif.Parser.Super

/-!
# Where `super` and `new.target` may stand

ECMA-262 13.3.7.1, 15.4.1, 15.7.1, 16.1.1 and 19.2.1.1 (`Contains SuperProperty`, `Contains SuperCall`,
`Contains NewTarget`).

* `super.x` and `super[x]` belong to the method, field or static block around them; arrow functions and blocks in
  between do not matter, a function in between does.
* `super(…)` belongs to the constructor of a class with `extends`; again only arrow functions and blocks may be
  between.
* `new.target` belongs to a function, method, field or static block; arrow functions do not count.
* A computed key and what follows `extends` belong to what is around the object or class.

The walk over a program is written once, for any `Rules`.  `lang` is the language.  `atMost` and `atLeast` are two
other sets of rules, between which the parser is shown to be.
-/
namespace Mole.Parser.Super

/-- What is known at a place (`σ`), how it changes on the way in, and what it allows. -/
structure Rules (σ : Type) where
  may : σ → Use → Bool
  scope : σ → σ
  fn : σ → σ
  arrow : σ → σ
  asyncArrow : σ → σ
  /-- the computed key of a member of an object, and its method -/
  key : (late : Bool) → σ → σ
  method : σ → σ
  /-- in a class, from what is around the class, and whether there is `extends`: keys, constructor, methods, and the
  values of fields and static blocks -/
  clsKey : (ext late : Bool) → σ → σ
  ctor : (ext : Bool) → σ → σ
  clsMethod : (ext : Bool) → σ → σ
  init : (ext : Bool) → σ → σ

mutual
/-- Is every use in the item one that the rules allow? -/
def Item.ok {σ} (R : Rules σ) (e : σ) : Item → Bool
  | .use u => R.may e u
  | .scope b => b.ok R (R.scope e)
  | .fn b => b.ok R (R.fn e)
  | .arrow ps b => ps.ok R (R.scope e) && b.ok R (R.arrow e)
  | .asyncArrow ps b => ps.ok R (R.asyncArrow e) && b.ok R (R.asyncArrow e)
  | .prop key v => key.ok R (R.key false e) && v.ok R e
  | .method late key b => key.ok R (R.key late e) && b.ok R (R.method e)
  | .cls es => es.ok R false e
  | .derived h es => h.ok R e && es.ok R true e
def Items.ok {σ} (R : Rules σ) (e : σ) : Items → Bool
  | .nil => true
  | .cons i is => i.ok R e && is.ok R e
def Elems.ok {σ} (R : Rules σ) (ext : Bool) (e : σ) : Elems → Bool
  | .nil => true
  | .ctor b es => b.ok R (R.ctor ext e) && es.ok R ext e
  | .method late key b es => key.ok R (R.clsKey ext late e) && b.ok R (R.clsMethod ext e) && es.ok R ext e
  | .field key v es => key.ok R (R.clsKey ext false e) && v.ok R (R.init ext e) && es.ok R ext e
  | .static b es => b.ok R (R.scope (R.init ext e)) && es.ok R ext e
end

/-! ## The language -/

/-- Which of `super.x`, `super(…)` and `new.target` there may be. -/
structure Lang where
  prop : Bool
  call : Bool
  target : Bool
  deriving DecidableEq

/-- The rules of the language. -/
def lang : Rules Lang where
  may e
    | .dot | .index => e.prop
    | .call => e.call
    | .construct => false
    | .target => e.target
  scope e := e
  fn _ := ⟨false, false, true⟩
  arrow e := e
  asyncArrow e := e
  key _ e := e
  method _ := ⟨true, false, true⟩
  clsKey _ _ e := e
  ctor ext _ := ⟨true, ext, true⟩
  clsMethod _ _ := ⟨true, false, true⟩
  init _ _ := ⟨true, false, true⟩

/-- Are all uses in a program where the language has them? -/
def legal (p : Items) : Bool := p.ok lang ⟨false, false, false⟩

/-! ## Two bounds -/

/-- As `Lang`, and whether some class around has `extends`. -/
structure Most where
  prop : Bool
  call : Bool
  target : Bool
  derived : Bool

/-- More than the language has: a function in a method, and a computed key of a class, are as the method; an arrow
function, and a key, are as a function; a constructor may use the `extends` of a class further out.  But there is no
`super[x]`, and no `super(…)` in an async arrow function. -/
def atMost : Rules Most where
  may e
    | .dot | .construct => e.prop
    | .index => false
    | .call => e.call
    | .target => e.target
  scope e := e
  fn e := ⟨e.prop, false, true, e.derived⟩
  arrow e := ⟨e.prop, e.call, true, e.derived⟩
  asyncArrow e := ⟨e.prop, false, true, e.derived⟩
  key late e := if late then ⟨true, false, true, e.derived⟩ else e
  method e := ⟨true, false, true, e.derived⟩
  clsKey ext _ e := ⟨true, false, true, e.derived || ext⟩
  ctor ext e := ⟨true, e.derived || ext, true, e.derived || ext⟩
  clsMethod ext e := ⟨true, false, true, e.derived || ext⟩
  init ext e := ⟨true, false, true, e.derived || ext⟩

/-- As `Lang`, and whether there is a class around. -/
structure Least where
  prop : Bool
  call : Bool
  target : Bool
  inCls : Bool

/-- Less than the language has: no `super[x]`, no `super` in a computed key, no `super(…)` in an async arrow function,
and in the methods of an object that is not in a class, none in blocks, parentheses and arrow functions. -/
def atLeast : Rules Least where
  may e
    | .dot => e.prop
    | .index | .construct => false
    | .call => e.call
    | .target => e.target
  scope e := ⟨e.prop && e.inCls, e.call, e.target, e.inCls⟩
  fn e := ⟨false, false, true, e.inCls⟩
  arrow e := ⟨e.prop && e.inCls, e.call, e.target, e.inCls⟩
  asyncArrow e := ⟨e.prop && e.inCls, false, e.target, e.inCls⟩
  key _ e := ⟨false, false, e.target, e.inCls⟩
  method e := ⟨true, false, true, e.inCls⟩
  clsKey _ _ e := ⟨false, false, e.target, true⟩
  ctor ext _ := ⟨true, ext, true, true⟩
  clsMethod _ _ := ⟨true, false, true, true⟩
  init _ _ := ⟨true, false, true, true⟩

/-! ## Programs without the troublesome forms -/

mutual
/-- No `super[x]` and `new super`, no async arrow function, nothing in computed keys, no methods in objects outside of
classes, no functions in classes, no class without `extends` in one with it, no arrow function outside of functions and
classes.  `c`: in a class; `d`: in one with `extends`; `f`: in a function. -/
def Item.tame (c d f : Bool) : Item → Bool
  | .use u => u != .index && u != .construct
  | .scope b => b.tame c d f
  | .fn b => !c && b.tame c d true
  | .arrow ps b => (c || f) && ps.tame c d f && b.tame c d f
  | .asyncArrow .. => false
  | .prop key v => key.none && v.tame c d f
  | .method _ key b => c && key.none && b.tame c d f
  | .cls es => !d && es.tame d
  | .derived h es => h.tame c d f && es.tame true
def Items.tame (c d f : Bool) : Items → Bool
  | .nil => true
  | .cons i is => i.tame c d f && is.tame c d f
def Elems.tame (d : Bool) : Elems → Bool
  | .nil => true
  | .ctor b es => b.tame true d true && es.tame d
  | .method _ key b es => key.none && b.tame true d true && es.tame d
  | .field key v es => key.none && v.tame true d true && es.tame d
  | .static b es => b.tame true d true && es.tame d
/-- Nothing there. -/
def Items.none : Items → Bool
  | .nil => true
  | .cons .. => false
end

end Mole.Parser.Super
