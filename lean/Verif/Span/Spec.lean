import Verif.Span.Model
/-!
# Specification vocabulary for source positions

Written from the English properties, not from the code.
-/
namespace Mole.Span

/-- The text as code points: decode from the front, one `RuneError` per ill-formed byte. -/
def decodeAllAux : Nat → Bytes → List Nat
  | 0, _ => []
  | _ + 1, [] => []
  | fuel + 1, b :: bs =>
    (decodeRune (b :: bs)).1 :: decodeAllAux fuel ((b :: bs).drop (decodeRune (b :: bs)).2)

/-- All code points of a text. -/
def decodeAll (s : Bytes) : List Nat := decodeAllAux s.length s

/-- Unicode scalar values: code points other than surrogates. -/
def Scalar (c : Nat) : Prop := c < 0xD800 ∨ (0xE000 ≤ c ∧ c < 0x110000)

/-- UTF-8 (RFC 3629, section 3): the bytes of a scalar value. -/
def encode (c : Nat) : Bytes :=
  if c < 0x80 then [.ofNat c]
  else if c < 0x800 then [.ofNat (0xC0 + c / 64), .ofNat (0x80 + c % 64)]
  else if c < 0x10000 then
    [.ofNat (0xE0 + c / 4096), .ofNat (0x80 + c / 64 % 64), .ofNat (0x80 + c % 64)]
  else
    [.ofNat (0xF0 + c / 262144), .ofNat (0x80 + c / 4096 % 64), .ofNat (0x80 + c / 64 % 64),
      .ofNat (0x80 + c % 64)]

/-- The code points of a text, from the definition of UTF-8: a byte at which no encoded scalar value
begins counts as U+FFFD. -/
inductive Decodes : Bytes → List Nat → Prop
  | nil : Decodes [] []
  | char {c t cs} : Scalar c → Decodes t cs → Decodes (encode c ++ t) (c :: cs)
  | bad {b t cs} : (∀ c t', Scalar c → b :: t ≠ encode c ++ t') → Decodes t cs →
      Decodes (b :: t) (0xFFFD :: cs)

/-- The code points with the property White_Space (Unicode, PropList.txt). -/
def White (c : Nat) : Prop :=
  c ∈ [0x09, 0x0A, 0x0B, 0x0C, 0x0D, 0x20, 0x85, 0xA0, 0x1680, 0x2000, 0x2001, 0x2002, 0x2003, 0x2004,
    0x2005, 0x2006, 0x2007, 0x2008, 0x2009, 0x200A, 0x2028, 0x2029, 0x202F, 0x205F, 0x3000]

instance (c : Nat) : Decidable (White c) := by unfold White; infer_instance

/-- Line terminators (ECMA-262, 12.3): LF, CR, LS and PS. -/
def LineTerm (c : Nat) : Prop := c ∈ ['\n'.toNat, '\r'.toNat, 0x2028, 0x2029]

instance (c : Nat) : Decidable (LineTerm c) := by unfold LineTerm; infer_instance

/-- Line-break normalisation of a code-point sequence: CR LF, CR and LF all become LF. -/
def normalize : List Nat → List Nat
  | [] => []
  | [0x0d] => [0x0a]
  | 0x0d :: 0x0a :: t => 0x0a :: normalize t
  | 0x0d :: c :: t => 0x0a :: normalize (c :: t)
  | c :: t => c :: normalize t

/-- Byte offset `e` directly follows a line feed: the byte before is LF, or it is CR and no
LF follows. -/
def IsLineEnd (code : Bytes) (e : Nat) : Prop :=
  0 < e ∧ (code[e - 1]? = some 0x0a ∨ (code[e - 1]? = some 0x0d ∧ code[e]? ≠ some 0x0a))

instance (code : Bytes) (e : Nat) : Decidable (IsLineEnd code e) := by
  unfold IsLineEnd; infer_instance

/-- The line feeds ending at or before offset `o`, as their end offsets, increasing. -/
def lineEnds (code : Bytes) (o : Nat) : List Nat :=
  (List.range (o + 1)).filter fun e => decide (IsLineEnd code e)

/-- The line number of offset `o`. -/
def lineOf (code : Bytes) (o : Nat) : Nat := 1 + (lineEnds code o).length

/-- The offset at which the line of `o` starts. -/
def lineStart (code : Bytes) (o : Nat) : Nat := ((lineEnds code o).getLast?).getD 0

/-- The column of offset `o`: code points since the line start. -/
def colOf (code : Bytes) (o : Nat) : Nat :=
  (decodeAll ((code.drop (lineStart code o)).take (o - lineStart code o))).length

/-- Call sequences in which every push is matched by a later pop or discard and no saved
state of the caller is touched. -/
inductive Balanced : List Op → Prop
  | nil : Balanced []
  | read {os} : Balanced os → Balanced (.read :: os)
  | advanceIf {os} (c) : Balanced os → Balanced (.advanceIf c :: os)
  | skipSpace {os} : Balanced os → Balanced (.skipSpace :: os)
  | look {os} : Balanced os → Balanced (.look :: os)
  | popped {os os'} : Balanced os → Balanced os' → Balanced (.push :: os ++ .pop :: os')
  | discarded {os os'} : Balanced os → Balanced os' → Balanced (.push :: os ++ .discard :: os')

end Mole.Span
