import Verif.Conc.WalkDir

/-! What is expected of a directory walk (C44, C45). -/

namespace Mole.Conc.Spec

open Mole.Conc

mutual
/-- All entries at and below a directory. -/
def entries : Dir → List (String × Bool)
  | .mk p _ es => (p, true) :: entriesE es
def entriesE : Ents → List (String × Bool)
  | .nil => []
  | .file p rest => (p, false) :: entriesE rest
  | .dir d rest => entries d ++ entriesE rest
end

mutual
/-- Every directory can be read. -/
def AllReadable : Dir → Prop
  | .mk _ ok es => ok = true ∧ AllReadableE es
def AllReadableE : Ents → Prop
  | .nil => True
  | .file _ rest => AllReadableE rest
  | .dir d rest => AllReadable d ∧ AllReadableE rest
end

mutual
/-- No directory has an empty path. -/
def Named : Dir → Prop
  | .mk p _ es => p ≠ "" ∧ NamedE es
def NamedE : Ents → Prop
  | .nil => True
  | .file _ rest => NamedE rest
  | .dir d rest => Named d ∧ NamedE rest
end

mutual
/-- The number of failing reads and of calls of Stop in a walk that goes on in spite of them. -/
def troubles (stops : String → Nat) : Dir → Nat
  | .mk p ok es => if ok then stops p + troublesE stops es else 1
def troublesE (stops : String → Nat) : Ents → Nat
  | .nil => 0
  | .file p rest => stops p + troublesE stops rest
  | .dir d rest => troubles stops d + troublesE stops rest
end

end Mole.Conc.Spec
