/-!
# Model of the lexer's mode stack and state stack (ecma/parser/lexer.go:14-38, 112-133, 259-314)

Saving the lexer state copies the slice header of the mode stack, not its elements: both
states share the backing array until an `append` exceeds its capacity.  The model therefore
has a heap of backing arrays.
-/
namespace Mole.Lexer

/-- lexer.go:33-38 `LexerMode`; `brace` and `bracket` are never used by the code. -/
structure Mode where
  kind : Nat
  paren : Int
  deriving DecidableEq, Repr

/-- lexer.go:16-31: the flags (`1 << iota` starts at iota = 1). -/
def LM_STRICT : Nat := 2
def LM_TEMPLATE : Nat := 4
def LM_TEMPLATE_TAGGED : Nat := 8
def LM_ASYNC : Nat := 16
def LM_GENERATOR : Nat := 32
def LM_CLASS_BODY : Nat := 64
def LM_CLASS_CTOR : Nat := 128
def LM_NEW : Nat := 256
def LM_JSX : Nat := 512
def LM_JSX_CHILD : Nat := 1024
def LM_JSX_ATTR : Nat := 2048
def LM_TS : Nat := 4096
def LM_TS_TYP_ARG : Nat := 8192

/-- A Go slice of modes: backing array, length, capacity. -/
structure Slice where
  arr : Nat
  len : Nat
  cap : Nat
  deriving DecidableEq, Repr

/-- lexer.go:112-127 `LexerState`: the mode slice and the rest, which is copied by value. -/
structure LState (R : Type) where
  mode : Slice
  rest : R

/-- The lexer: backing arrays, allocator, current state, state stack (lexer.go:147-148). -/
structure Lx (R : Type) where
  heap : Nat → Nat → Mode
  next : Nat
  state : LState R
  ss : List (LState R)

variable {R : Type}

/-- lexer.go:129-133 `newLexerState`. -/
def Lx.new (r : R) : Lx R :=
  ⟨fun _ _ => ⟨0, 0⟩, 1, ⟨⟨0, 1, 1⟩, r⟩, []⟩

/-- Assignment to one element of a backing array. -/
def setHeap (h : Nat → Nat → Mode) (a i : Nat) (m : Mode) : Nat → Nat → Mode :=
  fun a' i' => if a' = a ∧ i' = i then m else h a' i'

/-- lexer.go:259-261 `PushState`. -/
def Lx.pushState (l : Lx R) : Lx R := { l with ss := l.state :: l.ss }

/-- lexer.go:263-266 `DiscardState`; `none` is the index panic. -/
def Lx.discardState (l : Lx R) : Option (Lx R) :=
  match l.ss with
  | [] => none
  | _ :: ss => some { l with ss := ss }

/-- lexer.go:268-273 `PopState`. -/
def Lx.popState (l : Lx R) : Option (Lx R) :=
  match l.ss with
  | [] => none
  | s :: ss => some { l with ss := ss, state := s }

/-- lexer.go:298-300 `CurMode`, the element read. -/
def Lx.curMode (l : Lx R) : Mode := l.heap l.state.mode.arr (l.state.mode.len - 1)

/-- lexer.go:278-281: the inherited flags. -/
def Lx.inherited (l : Lx R) : Nat :=
  (((0 ||| (l.curMode.kind &&& LM_STRICT)) ||| (l.curMode.kind &&& LM_ASYNC)) |||
    (l.curMode.kind &&& LM_TS))

/-- lexer.go:275-285 `PushMode`.  `grow n` is the capacity Go's `append` picks when it must
reallocate for `n` elements; the theorems hold for every `grow`. -/
def Lx.pushMode (grow : Nat → Nat) (l : Lx R) (mode : Nat) (inherit : Bool) : Lx R :=
  let kind := if inherit then mode ||| l.inherited else mode
  let s := l.state.mode
  if s.len < s.cap then
    { l with
      heap := setHeap l.heap s.arr s.len ⟨kind, 0⟩
      state := { l.state with mode := { s with len := s.len + 1 } } }
  else
    { l with
      heap := fun a i => if a = l.next then
          if i = s.len then ⟨kind, 0⟩ else if i < s.len then l.heap s.arr i else ⟨0, 0⟩
        else l.heap a i
      next := l.next + 1
      state := { l.state with mode := ⟨l.next, s.len + 1, max (s.len + 1) (grow (s.len + 1))⟩ } }

/-- lexer.go:287-296 `PopMode`: the mode returned and the new lexer. -/
def Lx.popMode (l : Lx R) : Mode × Lx R :=
  let s := l.state.mode
  if s.len = 1 then
    (⟨0, 0⟩, { l with heap := setHeap l.heap s.arr 0 ⟨0, 0⟩ })
  else (l.curMode, { l with state := { l.state with mode := { s with len := s.len - 1 } } })

/-- Assignment through `CurMode()`. -/
def Lx.modCur (l : Lx R) (f : Mode → Mode) : Lx R :=
  { l with heap := setHeap l.heap l.state.mode.arr (l.state.mode.len - 1) (f l.curMode) }

/-- lexer.go:302-305 `AddMode`. -/
def Lx.addMode (l : Lx R) (mode : Nat) : Lx R := l.modCur fun m => { m with kind := m.kind ||| mode }

/-- lexer.go:307-310 `EraseMode`: `kind &= ^mode`, on naturals `kind - (kind & mode)`
bitwise. -/
def Lx.eraseMode (l : Lx R) (mode : Nat) : Lx R :=
  l.modCur fun m => { m with kind := m.kind ^^^ (m.kind &&& mode) }

/-- lexer.go:719, 722: `CurMode().paren += d`. -/
def Lx.bumpParen (l : Lx R) (d : Int) : Lx R := l.modCur fun m => { m with paren := m.paren + d }

/-- lexer.go:312-314 `IsMode`. -/
def Lx.isMode (l : Lx R) (mode : Nat) : Bool := l.curMode.kind &&& mode > 0

/-- What happens between saving and restoring a state. -/
inductive ModeOp (R : Type) where
  | pushMode (mode : Nat) (inherit : Bool)
  | popMode
  | addMode (mode : Nat)
  | eraseMode (mode : Nat)
  | bumpParen (d : Int)
  /-- any change of the fields copied by value: buffer, previous token, flags -/
  | setRest (r : R)
  | pushState
  | popState
  | discardState

def Lx.step (grow : Nat → Nat) (l : Lx R) : ModeOp R → Option (Lx R)
  | .pushMode m i => some (l.pushMode grow m i)
  | .popMode => some l.popMode.2
  | .addMode m => some (l.addMode m)
  | .eraseMode m => some (l.eraseMode m)
  | .bumpParen d => some (l.bumpParen d)
  | .setRest r => some { l with state := { l.state with rest := r } }
  | .pushState => some l.pushState
  | .popState => l.popState
  | .discardState => l.discardState

def Lx.run (grow : Nat → Nat) (l : Lx R) : List (ModeOp R) → Option (Lx R)
  | [] => some l
  | op :: ops => (l.step grow op).bind fun l' => l'.run grow ops

end Mole.Lexer
