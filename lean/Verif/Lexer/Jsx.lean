import Verif.Lexer.Escape
/-!
# Model of the JSX text scanner (ecma/parser/lexer.go:1669-1716)
-/
namespace Mole.Lexer

/-- Go `utf8.AppendRune` as bytes. -/
def utf8Bytes (c : Nat) : List Nat :=
  let c := appendRune c
  if c < 0x80 then [c]
  else if c < 0x800 then [0xC0 + c / 64, 0x80 + c % 64]
  else if c < 0x10000 then [0xE0 + c / 4096, 0x80 + c / 64 % 64, 0x80 + c % 64]
  else [0xF0 + c / 262144, 0x80 + c / 4096 % 64, 0x80 + c / 64 % 64, 0x80 + c % 64]

/-- What `readJSXTxt` finds: the end of the source, or a text, and what is left. -/
inductive JsxRes where
  | eof
  | txt (text rest : List Nat)
  deriving DecidableEq, Repr

/-- lexer.go:1684-1712: the loop of `readJSXTxt`.  `ents` is `HTMLEntities` (key in bytes, value
as code points); `i` counts the characters read since the `&`, `entity` is the byte buffer, `rs`
the text so far. -/
def jsxLoop (ents : List Nat → Option (List Nat)) :
    Nat → Nat → List Nat → List Nat → List Nat → Option (Except Err JsxRes)
  | 0, _, _, _, _ => none
  | _ + 1, i, _, rs, [] => if i = 0 then some (.ok .eof) else some (.ok (.txt rs []))
  | fuel + 1, i, entity, rs, c :: t =>
    if c = 123 ∨ c = 60 then some (.ok (.txt rs (c :: t)))
    else if c = 38 ∨ 0 < i then
      if c = 59 then
        match ents ((entity ++ utf8Bytes c).take (i + 1)) with
        | some ed => jsxLoop ents fuel 0 (entity ++ utf8Bytes c) (rs ++ ed) (rd (c :: t)).2
        | none => some (.error .jsxUndefinedEntity)
      else jsxLoop ents fuel (i + 1) (entity ++ utf8Bytes c) rs (rd (c :: t)).2
    else
      match rd (c :: t) with
      | (some r, rest) => jsxLoop ents fuel i entity (rs ++ [appendRune r]) rest
      | (none, rest) => jsxLoop ents fuel i entity rs rest

/-- lexer.go:1669-1716 `readJSXTxt`; the white space before the text, which the code puts back in
front of it, is `pre`. -/
def readJSXTxt (ents : List Nat → Option (List Nat)) (pre s : List Nat) :
    Option (Except Err JsxRes) :=
  match jsxLoop ents (s.length + 1) 0 [] [] s with
  | some (.ok (.txt text rest)) => some (.ok (.txt (pre ++ text) rest))
  | r => r

end Mole.Lexer
