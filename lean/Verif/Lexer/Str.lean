import Verif.Lexer.Escape
/-!
# Model of string and template scanning (ecma/parser/lexer.go:475-591, 1097-1192)
-/
namespace Mole.Lexer

/-- lexer.go:1097-1099 `(*Lexer).IsLineTerminator`; `super` is the feature `JSON_SUPER_SET`. -/
def isStrLT (super : Bool) (c : Nat) : Bool :=
  c == 0x0a || c == 0x0d || ((c == 0x2028 || c == 0x2029) && !super)

/-- What `readStr` returns: an error token, or the cached text (`none` when no escape occurred
and the text is cut from the source), the raw text between the quotes, the legacy-octal flag
and the text left. -/
inductive StrRes where
  | err (e : Err)
  | ok (buf : Option (List Nat)) (raw : List Nat) (octal : Bool) (rest : List Nat)
  deriving DecidableEq, Repr

/-- lexer.go:1113-1165: the loop of `readStr`.  `raw` is the source text read since the opening
quote (what `l.src.Text(start, ·)` returns), `tpl` is `IsMode(LM_TEMPLATE)`.  Fuel: one more than the characters left always suffices
(`strLoop_fuel`). -/
def strLoop (super tpl : Bool) (open_ : Nat) :
    Nat → Option (List Nat) → List Nat → Bool → List Nat → Option StrRes
  | 0, _, _, _, _ => none
  | fuel + 1, buf, raw, octal, s =>
    match rd s with
    | (none, _) => some (.err .unterminatedStr)
    | (some c, t) =>
      if c = 92 then
        let buf' := buf.getD raw
        if onRune isLT t.head? then
          strLoop super tpl open_ fuel (some buf') 
            (raw ++ 92 :: t.take (t.length - (readLineTerm t).length)) octal (readLineTerm t)
        else
          let res := readEscapeSeq tpl t
          match res.err with
          | some e => some (.err e)
          | none =>
            match res.r with
            | none => some (.err .unterminatedStr)
            | some r =>
              strLoop super tpl open_ fuel (some (buf' ++ [appendRune r]))
                (raw ++ 92 :: t.take (t.length - res.rest.length)) (octal || res.octal) res.rest
      else if isStrLT super c then some (.err .unterminatedStr)
      else if c = open_ then some (.ok buf raw octal t)
      else strLoop super tpl open_ fuel (buf.map (· ++ [c])) (raw ++ [c]) octal t

/-- lexer.go:1102-1173 `readStr` (after the opening quote). -/
def readStr (super tpl : Bool) (open_ : Nat) (s : List Nat) : Option StrRes :=
  strLoop super tpl open_ (s.length + 1) none [] false s

/-- astutil.go:114-133 `TokText` for a string token: the cached text unless it is empty, the
raw text between the quotes otherwise. -/
def strText (buf : Option (List Nat)) (raw : List Nat) : List Nat :=
  match buf with
  | some (b :: bs) => b :: bs
  | _ => raw

/-- lexer.go:1180-1188 `readJsxStr` (after the opening quote): raw text and text left. -/
def readJsxStr (open_ : Nat) : Nat → List Nat → List Nat → Option (Except Err (List Nat × List Nat))
  | 0, _, _ => none
  | fuel + 1, raw, s =>
    match rd s with
    | (none, _) => some (.error .unterminatedStr)
    | (some c, t) =>
      if c = open_ then some (.ok (raw, t))
      else readJsxStr open_ fuel (raw ++ s.take (s.length - t.length)) t

/-- What `readTplChs` returns besides offsets: text, whether the closing quote was read, the
fatal error, the first escape error, the text left. -/
structure TplRes where
  text : List Nat
  fin : Bool
  err : Option Err
  errEscape : Option Err
  rest : List Nat
  deriving DecidableEq, Repr

/-- lexer.go:526-591 `readTplChs`, the mode push omitted (see `Verif.Lexer.Mode`).  `none`: the
fuel ran out.  The escape scanner runs in template mode.  Note that on U+FFFD nothing is
consumed (lines 577-578). -/
def tplLoop : Nat → List Nat → Option Err → List Nat → Option TplRes
  | 0, _, _, _ => none
  | fuel + 1, text, ee, s =>
    match s.head? with
    | none => some ⟨text, false, some .unterminatedTpl, ee, s⟩
    | some c =>
      if c = 36 then
        let t := (rd s).2
        if t.head? = some 123 then some ⟨text, false, none, ee, (rd t).2⟩
        else tplLoop fuel (text ++ [c]) ee t
      else if c = 92 then
        let t := (rd s).2
        if onRune isLT t.head? then tplLoop fuel text ee (readLineTerm t)
        else
          match ee with
          | some e => tplLoop fuel text (some e) (rd t).2
          | none =>
            let res := readEscapeSeq true t
            let ee' := match res.err with
              | some e => some e
              | none => if res.r = some RE then some .badEscapeSeq else none
            match res.r with
            | none => some ⟨text, false, some .unterminatedTpl, ee', res.rest⟩
            | some r => tplLoop fuel (text ++ [appendRune r]) ee' res.rest
      else if c = RE then tplLoop fuel text (some .badRune) s
      else if c = 96 then some ⟨text, true, none, ee, (rd s).2⟩
      else
        match rd s with
        | (none, t) => tplLoop fuel (text ++ [RE]) ee t
        | (some r, t) => tplLoop fuel (text ++ [appendRune r]) ee t

end Mole.Lexer
