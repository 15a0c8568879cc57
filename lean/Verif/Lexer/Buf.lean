/-!
# Model of the lexer's lookahead buffer (ecma/parser/lexer.go:40-99, 195-227, 451-472)

Generic in the token type `T`.  The array `buf` is a function on indices; only indices below
`bufLen` are used.
-/
namespace Mole.Lexer

/-- lexer.go:40 `TOKENS_BUF_LEN`. -/
def bufLen : Nat := 5

/-- lexer.go:42-47 `TokensBuf`. -/
structure TB (T : Type) where
  buf : Nat → T
  len : Nat
  r : Nat
  w : Nat

/-- The zero value, with `z` the zero token. -/
def TB.new {T : Type} (z : T) : TB T := ⟨fun _ => z, 0, 0, 0⟩

/-- lexer.go:49-55 `incW`. -/
def TB.incW {T : Type} (b : TB T) : Nat := let w := b.w + 1; if w = bufLen then 0 else w

/-- lexer.go:57-63 `incR`. -/
def TB.incR {T : Type} (b : TB T) : Nat := let r := b.r + 1; if r = bufLen then 0 else r

/-- lexer.go:73-81 `write`; `none` is the panic. -/
def TB.write {T : Type} (b : TB T) : Option (TB T) :=
  if b.len < bufLen then some { b with len := b.len + 1, w := b.incW } else none

/-- lexer.go:83-85 `newToken`: the scanners fill the returned slot with `t`. -/
def TB.fill {T : Type} (b : TB T) (t : T) : TB T :=
  { b with buf := fun i => if i = b.w then t else b.buf i }

/-- lexer.go:87-95 `read`; `none` is the panic. -/
def TB.read {T : Type} (b : TB T) : Option (T × TB T) :=
  if b.len > 0 then some (b.buf b.r, { b with len := b.len - 1, r := b.incR }) else none

/-- lexer.go:97-99 `cur`. -/
def TB.cur {T : Type} (b : TB T) : T := b.buf b.r

/-- lexer.go:463-464: what `advance` does with a token other than EOF. -/
def TB.advance {T : Type} (b : TB T) (t : T) : Option (TB T) := (b.fill t).write

/-- What the lexer does with the buffer. -/
inductive BufOp (T : Type) where
  /-- `advance` that scans the token `t` (lexer.go:451-465) -/
  | advance (t : T)
  /-- `advance` or `Peek2nd` that scans the end of the source into the next slot
  (lexer.go:226, 332, 459-461) -/
  | eof (t : T)
  /-- `readTok` on a non-empty buffer (lexer.go:468-469) -/
  | read
  /-- `Peek` on a non-empty buffer (lexer.go:199) -/
  | cur
  /-- `Peek2nd` with two tokens buffered (lexer.go:223-224) -/
  | second
  deriving DecidableEq, Repr

/-- One step: the token handed out, if any, and the new buffer. -/
def TB.step {T : Type} (b : TB T) : BufOp T → Option (Option T × TB T)
  | .advance t => (b.advance t).map fun b' => (some t, b')
  | .eof t => some (some t, b.fill t)
  | .read => b.read.map fun p => (some p.1, p.2)
  | .cur => if b.len > 0 then some (some b.cur, b) else some (none, b)
  | .second => if b.len ≥ 2 then some (some (b.buf b.incR), b) else some (none, b)

/-- A history of steps: all tokens handed out and the final buffer. -/
def TB.run {T : Type} (b : TB T) : List (BufOp T) → Option (List (Option T) × TB T)
  | [] => some ([], b)
  | op :: ops =>
    match b.step op with
    | none => none
    | some (o, b') => (b'.run ops).map fun p => (o :: p.1, p.2)

end Mole.Lexer
