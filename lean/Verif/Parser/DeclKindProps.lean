import Verif.Parser.DeclKind

/-!
# C66: which declarations of one name are accepted together
-/
namespace Mole.Parser.Sym.Merging

/-! ## Deciding the rules -/

def Decl.all : List Decl :=
  [.variable, .function, .ambientFunction, .class_ true, .class_ false, .interface, .alias, .enum,
    .constEnum, .namespace_ true, .namespace_ false]

theorem Decl.mem_all (a : Decl) : a ∈ Decl.all := by
  cases a with
  | class_ x => cases x <;> decide
  | namespace_ x => cases x <;> decide
  | _ => decide

def mergedB : Decl → Decl → Bool
  | .interface, .interface | .class_ _, .interface | .ambientFunction, .ambientFunction
  | .enum, .enum | .constEnum, .constEnum => true
  | .namespace_ _, b => match b with
    | .namespace_ _ | .class_ _ | .function | .ambientFunction | .enum | .constEnum => true
    | _ => false
  | .class_ true, .function | .class_ true, .ambientFunction => true
  | _, _ => false

theorem mergedB_iff (a b : Decl) : Merged a b ↔ mergedB a b = true := by
  constructor
  · intro h; cases h <;> rfl
  · intro h
    unfold mergedB at h
    split at h <;> first | (split at h <;> first | constructor | cases h) | constructor | cases h

instance (a b : Decl) : Decidable (Merged a b) := decidable_of_iff _ (mergedB_iff a b).symm
instance (a b : Decl) : Decidable (Compatible a b) := by unfold Compatible; infer_instance

/-! ## What the symbol table answers -/

def goes (a b : Decl) : Bool := checkRefDup (a.ref 0).typ (b.ref 0).typ

theorem bind_ne_var (a : Decl) (d : Nat) : (a.ref d).bind ≠ .var := by
  cases a <;> simp [Decl.ref]

theorem typ_eq (a : Decl) (d e : Nat) : (a.ref d).typ = (a.ref e).typ := by cases a <;> rfl

theorem addLocal_first {name : Nat} {s : Scope} {up : List Scope} (a : Decl) (d : Nat)
    (hc : s.kind .catch_ = false) (hn : s.refs name = none) :
    addLocal (s :: up) (a.ref d) name true =
      .ok ({ s with refs := put s.refs name { a.ref d with scope := some s.id } } :: up) := by
  simp [addLocal, hc, bind_ne_var, addCur, curClash, hn, putCur]

theorem addLocal_next {name : Nat} {s : Scope} {up : List Scope} (b : Decl) (d : Nat) {l : Ref}
    (hc : s.kind .catch_ = false) (hn : s.refs name = some l) (hs : l.scope ≠ none) :
    addLocal (s :: up) (b.ref d) name true =
      if checkRefDup l.typ (b.ref d).typ then .ok (s :: up) else .error .err := by
  have : curClash (b.ref d) (some l) = some true := by
    unfold curClash
    obtain ⟨i, hi⟩ := Option.ne_none_iff_exists'.mp hs
    simp only [hi]
    split <;> simp [bind_ne_var]
  simp [addLocal, hc, bind_ne_var, addCur, hn, this]

theorem declareSeq_next {name : Nat} {s : Scope} {up : List Scope} {l : Ref}
    (hc : s.kind .catch_ = false) (hn : s.refs name = some l) (hs : l.scope ≠ none) :
    ∀ (as : List Decl) (d : Nat), declareSeq name as d (s :: up) =
      if ∀ b ∈ as, checkRefDup l.typ (b.ref 0).typ then .ok (s :: up) else .error .err
  | [], d => by simp [declareSeq]
  | b :: as, d => by
    rw [declareSeq, addLocal_next b d hc hn hs, typ_eq b d 0]
    by_cases h : checkRefDup l.typ (b.ref 0).typ = true
    · simp [h, declareSeq_next hc hn hs as]
    · simp [h]

theorem declareSeq_eq {name : Nat} {s : Scope} {up : List Scope} (hc : s.kind .catch_ = false)
    (hn : s.refs name = none) (a : Decl) (as : List Decl) (d : Nat) :
    declareSeq name (a :: as) d (s :: up) =
      if ∀ b ∈ as, goes a b then
        .ok ({ s with refs := put s.refs name { a.ref d with scope := some s.id } } :: up)
      else .error .err := by
  rw [declareSeq, addLocal_first a d hc hn]
  simp only
  rw [declareSeq_next (s := { s with refs := put s.refs name { a.ref d with scope := some s.id } })
    (l := { a.ref d with scope := some s.id }) hc (by simp [put]) (by simp)]
  simp only [goes, typ_eq a d 0]

/-! ## The theorems -/

/-- The pairs, in one of the two orders, on which the parser and the language disagree. -/
inductive Odd : Decl → Decl → Prop
  /-- accepted: `class A {} let A` -/
  | classVariable (a) : Odd (.class_ a) .variable
  /-- accepted: `class A {} function A() {}` -/
  | classFunction : Odd (.class_ false) .function
  /-- accepted: `class A {} declare function A()` -/
  | classAmbient : Odd (.class_ false) .ambientFunction
  /-- accepted: `const enum A {} let A` -/
  | constEnumVariable : Odd .constEnum .variable
  /-- accepted: `const enum A {} function A() {}` -/
  | constEnumFunction : Odd .constEnum .function
  /-- accepted: `namespace A { export let x } let A` -/
  | namespaceVariable : Odd (.namespace_ true) .variable
  /-- accepted: `declare function A(); let A` -/
  | ambientVariable : Odd .ambientFunction .variable
  /-- accepted: `declare function A(); function A() {}` -/
  | ambientFunction : Odd .ambientFunction .function
  /-- rejected: `declare function A(); interface A {}` -/
  | ambientInterface : Odd .ambientFunction .interface
  /-- rejected: `declare function A(); type A = T` -/
  | ambientAlias : Odd .ambientFunction .alias
  /-- rejected: `enum A {} namespace A {}` -/
  | enumNamespace (v) : Odd .enum (.namespace_ v)

def oddB : Decl → Decl → Bool
  | .class_ _, .variable | .class_ false, .function | .class_ false, .ambientFunction
  | .constEnum, .variable | .constEnum, .function | .namespace_ true, .variable
  | .ambientFunction, .variable | .ambientFunction, .function | .ambientFunction, .interface
  | .ambientFunction, .alias | .enum, .namespace_ _ => true
  | _, _ => false

theorem oddB_iff (a b : Decl) : Odd a b ↔ oddB a b = true := by
  constructor
  · intro h; cases h <;> rfl
  · intro h
    unfold oddB at h
    split at h <;> first | constructor | cases h

instance (a b : Decl) : Decidable (Odd a b) := decidable_of_iff _ (oddB_iff a b).symm

theorem goes_iff (a b : Decl) : goes a b = true ↔ (Compatible a b ↔ ¬(Odd a b ∨ Odd b a)) := by
  have h : ∀ a ∈ Decl.all, ∀ b ∈ Decl.all,
      (goes a b = true ↔ (Compatible a b ↔ ¬(Odd a b ∨ Odd b a))) := by decide +kernel
  exact h a a.mem_all b b.mem_all

/-- **C66**, in part: two declarations of one name in one scope are accepted exactly if the language
allows them together, except for the pairs of `Odd`, on which every answer is the wrong one (that is the
part that fails).  Quantified over the forms of declaration, the name and the scopes that are open. -/
theorem two_declarations_partial {name : Nat} {c : List Scope} (hf : Fresh name c) (a b : Decl) :
    ((∃ c', declareSeq name [a, b] 0 c = .ok c') ↔ (Compatible a b ↔ ¬(Odd a b ∨ Odd b a))) ∧
    ((¬∃ c', declareSeq name [a, b] 0 c = .ok c') ↔ declareSeq name [a, b] 0 c = .error .err) := by
  match c, hf with
  | s :: up, ⟨hc, hn⟩ =>
    rw [← goes_iff, declareSeq_eq hc hn]
    by_cases h : goes a b = true <;> simp [h]

/-- The hypotheses hold in a function body, and both answers occur. -/
example : Fresh 7 (inside .func) ∧ Compatible (.class_ false) .interface ∧ ¬Compatible .enum .alias ∧
    ¬(Odd (.class_ false) .interface ∨ Odd .interface (.class_ false)) ∧
    ¬(Odd .enum .alias ∨ Odd .alias .enum) := by
  refine ⟨⟨rfl, rfl⟩, ?_⟩
  decide

/-- **C66**: the order of two declarations does not matter. -/
theorem order_irrelevant {name : Nat} {c : List Scope} (hf : Fresh name c) (a b : Decl) :
    (∃ c', declareSeq name [a, b] 0 c = .ok c') ↔ (∃ c', declareSeq name [b, a] 0 c = .ok c') := by
  rw [(two_declarations_partial hf a b).1, (two_declarations_partial hf b a).1]
  have : Compatible a b ↔ Compatible b a := by
    simp only [Compatible, Bool.and_comm]; grind
  rw [this, or_comm]

example : (∃ c, declareSeq 7 [.interface, .class_ false] 0 (inside .func) = .ok c) ∧
    ∃ c, declareSeq 7 [.class_ false, .interface] 0 (inside .func) = .ok c := ⟨⟨_, rfl⟩, _, rfl⟩

/-- **C66**, for any number of declarations of one name: they are accepted exactly if each of the later
ones is accepted after the first alone, and then the name means the first. -/
theorem later_against_first {name : Nat} {c : List Scope} (hf : Fresh name c) (a : Decl)
    (as : List Decl) :
    ((∃ c', declareSeq name (a :: as) 0 c = .ok c') ↔
      ∀ b ∈ as, ∃ c', declareSeq name [a, b] 0 c = .ok c') ∧
    (∀ c', declareSeq name (a :: as) 0 c = .ok c' → (bindingOf name c').map Ref.dec = some 0) := by
  match c, hf with
  | s :: up, ⟨hc, hn⟩ =>
    rw [declareSeq_eq hc hn]
    constructor
    · have key : ∀ b, (∃ c', declareSeq name [a, b] 0 (s :: up) = .ok c') ↔ goes a b = true := by
        intro b
        rw [declareSeq_eq hc hn]
        by_cases h : goes a b = true <;> simp [h]
      simp only [key]
      split
      · exact ⟨fun _ => ‹_›, fun _ => ⟨_, rfl⟩⟩
      · exact ⟨nofun, fun h => absurd h ‹_›⟩
    · intro c' h
      split at h
      · cases h
        have : ((a.ref 0).dec : Nat) = 0 := by cases a <;> rfl
        simp [bindingOf, put, this]
      · cases h

example : Fresh 7 (inside .func) ∧
    ∃ c, declareSeq 7 [.interface, .class_ false, .interface, .namespace_ true] 0 (inside .func) = .ok c :=
  ⟨⟨rfl, rfl⟩, _, rfl⟩

/-- **C66**, in part: declarations of one name that the language allows together, two by two, are
accepted, however many they are, unless two of them form a pair of `Odd`. -/
theorem compatible_accepted_partial {name : Nat} {c : List Scope} (hf : Fresh name c) (as : List Decl)
    (h : as.Pairwise fun a b => Compatible a b ∧ ¬(Odd a b ∨ Odd b a)) :
    ∃ c', declareSeq name as 0 c = .ok c' := by
  cases as with
  | nil => exact ⟨_, rfl⟩
  | cons a as =>
    rw [(later_against_first hf a as).1]
    intro b hb
    rw [(two_declarations_partial hf a b).1]
    have := List.rel_of_pairwise_cons h hb
    exact ⟨fun _ => this.2, fun _ => this.1⟩

example : ([.interface, .class_ false, .interface, .namespace_ true] : List Decl).Pairwise
    fun a b => Compatible a b ∧ ¬(Odd a b ∨ Odd b a) := by decide

/-- **C66 is violated** by each pair of `Odd`, in both orders and in every scope. -/
theorem odd_pairs_violated {name : Nat} {c : List Scope} (hf : Fresh name c) {a b : Decl}
    (h : Odd a b ∨ Odd b a) : (∃ c', declareSeq name [a, b] 0 c = .ok c') ↔ ¬Compatible a b := by
  rw [(two_declarations_partial hf a b).1]
  simp [h]

/-- The best known ones: `enum A {} namespace A {}` is rejected, `namespace A { export let x } let A` and
`class A {} function A() {}` are accepted. -/
example : declareSeq 7 [.enum, .namespace_ true] 0 (inside .func) = .error .err ∧
    (∃ c, declareSeq 7 [.namespace_ true, .variable] 0 (inside .func) = .ok c) ∧
    ∃ c, declareSeq 7 [.class_ false, .function] 0 (inside .func) = .ok c := ⟨rfl, ⟨_, rfl⟩, _, rfl⟩

/-- **C66 is violated**: `interface A {} class A {} class A {}` is accepted, the third declaration being
compared with the first only. -/
theorem third_declaration_violated :
    (∃ c, declareSeq 7 [.interface, .class_ false, .class_ false] 0 (inside .func) = .ok c) ∧
    ¬Compatible (.class_ false) (.class_ false) ∧
    declareSeq 7 [.class_ false, .class_ false] 0 (inside .func) = .error .err :=
  ⟨⟨_, rfl⟩, by decide, rfl⟩

/-- **C66 is violated**: an import never clashes with what is declared before it, `let a; import a from
"m"`, although the same two the other way round are rejected. -/
theorem import_violated (d : Nat) :
    (∃ c, addLocal Tab.new.chain (Decl.ref .variable 0) 7 true = .ok c ∧ declareImport 7 d c = .ok c) ∧
    ∃ c, declareImport 7 d Tab.new.chain = .ok c ∧
      addLocal c (Decl.ref .variable 1) 7 true = .error .err :=
  ⟨⟨_, rfl, rfl⟩, _, rfl, rfl⟩

/-- **C66 is violated**: in sloppy code the signature of an overload makes the name free again: `let f;
function f(): void; let f;` is accepted. -/
theorem overload_violated : ∃ c c' c'', addLocal (inside .func) (Decl.ref .variable 0) 7 true = .ok c ∧
    declareOverload false 7 1 c = .ok c' ∧ addLocal c' (Decl.ref .variable 2) 7 true = .ok c'' :=
  ⟨_, _, _, rfl, rfl, rfl⟩

end Mole.Parser.Sym.Merging
