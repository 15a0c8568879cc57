/-!
# Model of `span/source.go`

Go strings are byte lists (`List UInt8`).  A `rune` is a `Nat`; the Go value `EOF = rune(-1)`
is `none`.  `uint32` offsets are `Nat` (sources shorter than 4 GiB).
Panics (slicing out of range, popping an empty state stack) are `none` of an outer `Option`.
-/
namespace Mole.Span

abbrev Bytes := List UInt8

/-- Go `utf8.RuneError`. -/
def runeError : Nat := 0xFFFD

/-- Continuation byte test with explicit bounds (`accept` ranges of Go's `unicode/utf8`). -/
def inRange (lo hi : Nat) (b : UInt8) : Bool := lo ≤ b.toNat && b.toNat ≤ hi

/-- Go `utf8.DecodeRuneInString` (standard library, used at span/source.go:21 and
util/str.go:26,35,49): the first code point and its width in bytes; `(RuneError, 0)` on the
empty string, `(RuneError, 1)` on an ill-formed sequence. -/
def decodeRune : Bytes → Nat × Nat
  | [] => (runeError, 0)
  | b0 :: t =>
    let x := b0.toNat
    if x < 0x80 then (x, 1)
    else if x < 0xC2 then (runeError, 1)
    else if x < 0xE0 then
      match t with
      | b1 :: _ =>
        if inRange 0x80 0xBF b1 then ((x - 0xC0) * 64 + (b1.toNat - 0x80), 2)
        else (runeError, 1)
      | [] => (runeError, 1)
    else if x < 0xF0 then
      match t with
      | b1 :: b2 :: _ =>
        if inRange (if x = 0xE0 then 0xA0 else 0x80) (if x = 0xED then 0x9F else 0xBF) b1
            && inRange 0x80 0xBF b2 then
          ((x - 0xE0) * 4096 + (b1.toNat - 0x80) * 64 + (b2.toNat - 0x80), 3)
        else (runeError, 1)
      | _ => (runeError, 1)
    else if x < 0xF5 then
      match t with
      | b1 :: b2 :: b3 :: _ =>
        if inRange (if x = 0xF0 then 0x90 else 0x80) (if x = 0xF4 then 0x8F else 0xBF) b1
            && inRange 0x80 0xBF b2 && inRange 0x80 0xBF b3 then
          ((x - 0xF0) * 262144 + (b1.toNat - 0x80) * 4096 + (b2.toNat - 0x80) * 64
            + (b3.toNat - 0x80), 4)
        else (runeError, 1)
      | _ => (runeError, 1)
    else (runeError, 1)

/-- span/source.go:20-29 `(*Runes).advance`: rune (or EOF), width, remaining bytes. -/
def runesAdvance (raw : Bytes) : Option Nat × Nat × Bytes :=
  let (r, size) := decodeRune raw
  let r' := if r = runeError then (if size = 0 then none else some r) else some r
  (r', size, raw.drop size)

/-- span/source.go:31-36 `SourceState`. -/
structure State where
  rest : Bytes
  ofst : Nat
  pos : Nat
  metLineTerm : Bool
  deriving DecidableEq, Repr

/-- span/source.go:50-62 `Source` without `Path`; the state stack has its top at the head. -/
structure Source where
  code : Bytes
  state : State
  ss : List State
  deriving DecidableEq, Repr

/-- span/source.go:38-42 and 64-71 `newSourceState`, `NewSource`. -/
def newSource (code : Bytes) : Source :=
  ⟨code, ⟨code, 0, 0, false⟩, []⟩

/-- span/source.go:80-82 `PushState`. -/
def Source.pushState (s : Source) : Source := { s with ss := s.state :: s.ss }

/-- span/source.go:85-88 `DiscardState`; `none` is the index panic on an empty stack. -/
def Source.discardState (s : Source) : Option Source :=
  match s.ss with
  | [] => none
  | _ :: ss => some { s with ss := ss }

/-- span/source.go:91-96 `PopState`; `none` is the index panic on an empty stack. -/
def Source.popState (s : Source) : Option Source :=
  match s.ss with
  | [] => none
  | st :: ss => some { s with state := st, ss := ss }

/-- span/source.go:99-108 `(*Source).advance`.  At EOF `runes.advance` drops zero bytes, so
the state is unchanged. -/
def State.advance (s : State) : Option Nat × State :=
  match runesAdvance s.rest with
  | (none, _, rest) => (none, { s with rest := rest })
  | (some r, size, rest) => (some r, { s with rest := rest, ofst := s.ofst + size, pos := s.pos + 1 })

/-- span/source.go:110-114 `Peek` (works on a copy of the runes). -/
def State.peek (s : State) : Option Nat := (runesAdvance s.rest).1

/-- span/source.go:116-124 `Ahead2nd`. -/
def State.ahead2nd (s : State) : Option Nat :=
  match runesAdvance s.rest with
  | (r, size, rest) => if size = 0 then r else (runesAdvance rest).1

/-- span/source.go:126-128 `AheadIsCh`. -/
def State.aheadIsCh (s : State) (c : Option Nat) : Bool := s.peek == c

/-- span/source.go:170-173 `AheadIsChOr`. -/
def State.aheadIsChOr (s : State) (c1 c2 : Option Nat) : Bool := s.peek == c1 || s.peek == c2

/-- span/source.go:158-168 `AheadIsChs2`; `r2` starts as `utf8.RuneError` and is only
replaced when a first rune was decoded. -/
def State.aheadIsChs2 (s : State) (c1 c2 : Option Nat) : Bool :=
  match runesAdvance s.rest with
  | (r1, size, rest) =>
    let r2 := if size ≠ 0 then (runesAdvance rest).1 else some runeError
    r1 == c1 && r2 == c2

/-- span/source.go:130-132 `AheadIsEOF`. -/
def Source.aheadIsEOF (s : Source) : Bool := s.state.ofst == s.code.length

/-- span/source.go:175-177 `IsLineTerminator`. -/
def isLineTerminator (c : Nat) : Bool := c == 0x0a || c == 0x0d || c == 0x2028 || c == 0x2029

/-- `IsLineTerminator` on a rune that may be EOF (EOF is -1, hence no terminator). -/
def isLineTerminator? : Option Nat → Bool
  | none => false
  | some c => isLineTerminator c

/-- span/source.go:143-156 `Read`: joins CR LF and unifies CR to LF. -/
def State.read (s : State) : Option Nat × State :=
  match s.advance with
  | (r, s1) =>
    let s2 :=
      if isLineTerminator? r then
        if r = some 0x0d then
          if s1.peek = some 0x0a then s1.advance.2 else s1
        else s1
      else s1
    let r' := if r = some 0x0d ∨ r = some 0x0a then some 0x0a else r
    (r', s2)

/-- span/source.go:134-140 `AdvanceIf`. -/
def State.advanceIf (s : State) (c : Option Nat) : Bool × State :=
  if s.peek = c then (true, s.read.2) else (false, s)

/-- Go `unicode.IsSpace` (standard library; used at span/source.go:208). -/
def isSpace (c : Nat) : Bool :=
  c == 0x09 || c == 0x0a || c == 0x0b || c == 0x0c || c == 0x0d || c == 0x20 || c == 0x85 ||
  c == 0xA0 || c == 0x1680 || (0x2000 ≤ c && c ≤ 0x200a) || c == 0x2028 || c == 0x2029 ||
  c == 0x202f || c == 0x205f || c == 0x3000

/-- The loop of `SkipSpace` (span/source.go:206-215), with the number of iterations bounded
by `fuel`; `skipSpace` below supplies one more than the bytes left, and
`skipLoop_fuel` (Lemmas) shows that any larger fuel gives the same result. -/
def skipLoop : Nat → State → State
  | 0, s => s
  | fuel + 1, s =>
    match s.peek with
    | none => s
    | some c =>
      if !isSpace c then s
      else
        let s' := if isLineTerminator c then { s with metLineTerm := true } else s
        skipLoop fuel s'.read.2

/-- span/source.go:204-217 `SkipSpace`. -/
def State.skipSpace (s : State) : State :=
  skipLoop (s.rest.length + 1) { s with metLineTerm := false }

/-- span/source.go:220-222 and 228-230 `Text`, `RngText`: slicing panics (`none`) unless
`lo ≤ hi ≤ len`. -/
def slice (code : Bytes) (lo hi : Nat) : Option Bytes :=
  if lo ≤ hi ∧ hi ≤ code.length then some ((code.drop lo).take (hi - lo)) else none

/-- Go `len([]rune(s))`: number of decoded runes; one per ill-formed byte. -/
def runeCountAux : Nat → Bytes → Nat
  | 0, _ => 0
  | _ + 1, [] => 0
  | fuel + 1, b :: bs => runeCountAux fuel ((b :: bs).drop (decodeRune (b :: bs)).2) + 1

/-- Go `len([]rune(s))`; the fuel `s.length` always suffices since every rune takes a byte
or more. -/
def runeCount (s : Bytes) : Nat := runeCountAux s.length s

/-- `linefeed.FindIndex(buf)[1]` for the pattern `(?m)\r\n?|\n` (span/source.go:232,252,288):
the end of the leftmost match, `none` when there is no match. -/
def findLF : Bytes → Option Nat
  | [] => none
  | b :: t =>
    if b = 0x0d then
      match t with
      | c :: _ => if c = 0x0a then some 2 else some 1
      | [] => some 1
    else if b = 0x0a then some 1
    else (findLF t).map (· + 1)

/-- The inner loop of `LineCol`/`OfstLineCol` (span/source.go:251-262, 287-299): advances
`cur` over the line feeds that end at or before `ofst`.  Fuel bounds the iterations; each
consumes a byte or more. -/
def lineLoop (code : Bytes) (ofst : Nat) : Nat → Nat → Nat → Nat × Nat
  | 0, cur, line => (cur, line)
  | fuel + 1, cur, line =>
    match findLF (code.drop cur) with
    | some e => if cur + e ≤ ofst then lineLoop code ofst fuel (cur + e) (line + 1) else (cur, line)
    | none => (cur, line)

/-- span/source.go:324-327 `Pos`. -/
structure Pos where
  line : Nat
  col : Nat
  deriving DecidableEq, Repr

/-- span/source.go:279-305 `OfstLineCol`; `none` is the slicing panic. -/
def ofstLineCol (code : Bytes) (ofst : Nat) : Option Pos :=
  let (cur, line) := lineLoop code ofst (code.length + 1) 0 1
  (slice code cur ofst).map fun t => ⟨line, runeCount t⟩

/-- span/source.go:239-277 `LineCol`: the second round goes on from the `cur` and `line` of
the first. -/
def lineCol (code : Bytes) (lo hi : Nat) : Option (Pos × Pos) :=
  let (cur, line) := lineLoop code lo (code.length + 1) 0 1
  (slice code cur lo).bind fun t =>
    let (cur', line') := lineLoop code hi (code.length + 1) cur line
    (slice code cur' hi).map fun t' => (⟨line, runeCount t⟩, ⟨line', runeCount t'⟩)

/-- span/source.go:307-310 `Range`. -/
structure Range where
  lo : Nat
  hi : Nat
  deriving DecidableEq, Repr

/-- span/source.go:316-318 `Empty`. -/
def Range.empty (r : Range) : Bool := r.lo == 0 && r.hi == 0

/-- The calls a client can make on a `Source`.  Look-ahead calls do not change the state and
are covered by `look`. -/
inductive Op where
  | read
  | advanceIf (c : Option Nat)
  | skipSpace
  | look
  | push
  | pop
  | discard
  deriving DecidableEq, Repr

/-- One call on a `Source` (dispatch only). -/
def Source.step (s : Source) : Op → Option Source
  | .read => some { s with state := s.state.read.2 }
  | .advanceIf c => some { s with state := (s.state.advanceIf c).2 }
  | .skipSpace => some { s with state := s.state.skipSpace }
  | .look => some s
  | .push => some s.pushState
  | .pop => s.popState
  | .discard => s.discardState

/-- A history of calls. -/
def Source.run (s : Source) : List Op → Option Source
  | [] => some s
  | o :: os => (s.step o).bind fun s' => s'.run os

end Mole.Span
