import Verif.Parser.Cmts

/-! # C82: the words of the statements -/

namespace Mole.Parser.Cmts

/-- The comments of a source. -/
def cmts : List Item → List Cmt
  | [] => []
  | .cmt c :: r => c :: cmts r
  | .tok _ :: r => cmts r

/-- All comments that are somewhere: in a list, held, or written into a map. -/
def St.all (s : St) : List Cmt := s.stmt ++ s.expr ++ s.held.flatten ++ (s.maps.map (·.2)).flatten

/-- Comments one after the other in the source. -/
def Sorted (l : List Cmt) : Prop := l.Pairwise fun a b => a.lo < b.lo

/-- No state is restored: the source is JavaScript. -/
def plain (l : List Op) : Prop := ∀ o ∈ l, o ≠ .restore

/-- The expression ends in a name, not in an object. -/
def E.noObj : E → Prop
  | .name _ => True
  | .obj _ => False
  | .asg _ _ r => r.noObj

/-- The name at the end of an expression. -/
def E.last : E → Nat
  | .name n | .obj n => n
  | .asg _ _ r => r.last

/-- The keys that may be reported for. -/
def keys (l : List (Nat × E)) : List Key := l.flatMap fun p => [⟨p.2.last, true⟩, ⟨p.1, true⟩, ⟨p.1, false⟩]

/-- The comments of `l`, those with `own` on a line of their own and the others: after a line feed, after a comment that is, or first of all.
`p`: the comment before is after a line feed. -/
def pick (own : Bool) : Bool → List Cmt → List Cmt
  | _, [] => []
  | p, c :: r => (if (c.nl || p || c.lo = 0) = own then [c] else []) ++ pick own c.nl r

def own (l : List Cmt) : List Cmt := pick true false l
def inline (l : List Cmt) : List Cmt := pick false false l

/-- `name;` with the comments before the name and before the semicolon, and the numbers of the statement and of the name. -/
structure Row where
  stmt : Nat
  name : Nat
  pre : List Cmt
  mid : List Cmt

/-- Comments, and a token or nothing. -/
def upTo (l : List Cmt) (r : List Item) : List Item := l.map .cmt ++ r

def source : List Row → List Cmt → List Item
  | [], tail => upTo tail []
  | r :: rows, tail => upTo r.pre (.tok 1 :: upTo r.mid (.tok 2 :: source rows tail))

/-- The comments before the first token. -/
def next : List Row → List Cmt → List Cmt
  | [], tail => tail
  | r :: _, _ => r.pre

/-- What follows the first token. -/
def afterFirst : List Row → List Cmt → List Item
  | [], _ => []
  | r :: rows, tail => upTo r.mid (.tok 2 :: source rows tail)

/-- What is reported for the statements of `rows`, if `o` are the comments on lines of their own before the first and `i` the others.  For a name,
what is within the statement; before a statement, what is on lines of its own before it, or within the one before; after a statement, what is
between it and the next, not on lines of its own. -/
def entries (o i : List Cmt) : List Row → List Cmt → List (Key × List Cmt)
  | [], _ => []
  | r :: rows, tail =>
    [(⟨r.name, true⟩, i ++ inline r.mid), (⟨r.stmt, true⟩, o), (⟨r.stmt, false⟩, inline (next rows tail))] ++
      entries (own r.mid ++ own (next rows tail)) [] rows tail

end Mole.Parser.Cmts
