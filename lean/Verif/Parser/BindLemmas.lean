import Verif.Parser.Bind
import Verif.Lexer.NameProps

/-!
# The names fall into ten classes, and only the class counts
-/
namespace Mole.Parser.Bind
open Lexer (str classify NameTok)

/-- What a name is, as far as the checks go. -/
inductive Cls where
  | word | const | in_ | let_ | private_ | yield | other | evalArgs | await | plain
  deriving DecidableEq, Repr

/-- The words of `Lexer.keywords`. -/
def plainWords : List String := Lexer.reserved

def clsOf (name : String) : Cls :=
  if name ∈ plainWords then .word
  else if name = "const" then .const
  else if name = "in" then .in_
  else if name = "let" then .let_
  else if name = "private" then .private_
  else if name = "yield" then .yield
  else if name = "implements" ∨ name = "interface" ∨ name = "package" ∨ name = "protected" ∨ name = "public" ∨
    name = "static" then .other
  else if name = "eval" ∨ name = "arguments" then .evalArgs
  else if name = "await" then .await
  else .plain

def Cls.strictKw : Cls → Bool
  | .let_ | .const | .private_ | .yield | .other => true
  | _ => false

def tokC (module aa strict lexAsync esc : Bool) (c : Cls) : NameTok :=
  if c = .word then (if esc then .escapeInKeyword else .keyword)
  else if strict && c.strictKw then .strictKeyword
  else if c = .await ∧ (module || (aa && lexAsync)) = true then (if esc then .escapeInKeyword else .await)
  else .name

theorem str_inj (a b : String) : str a = str b ↔ a = b := by
  constructor
  · intro h
    have : a.toList = b.toList := by
      have hi : Function.Injective Char.toNat := by
        intro x y hxy
        exact Char.ext (UInt32.toNat_inj.1 hxy)
      exact (List.map_inj_right fun x y hxy => hi hxy).1 h
    exact String.toList_inj.1 this
  · rintro rfl; rfl

/-- All the names that mean something. -/
def allWords : List String := reservedWords ++ strictWords ++ ["await"]

theorem clsOf_plain (name : String) (h : name ∉ allWords) : clsOf name = .plain := by
  have hr : ∀ w ∈ Lexer.reserved, w ∈ allWords := by decide
  have : ∀ w ∈ allWords, name ≠ w := fun w hw e => h (e ▸ hw)
  have h' := fun w hw => this w hw
  have hw : name ∉ plainWords := fun hn => h (hr _ hn)
  unfold clsOf
  simp only [hw, if_false]
  rw [if_neg (this _ (by decide)), if_neg (this _ (by decide)), if_neg (this _ (by decide)),
    if_neg (this _ (by decide)), if_neg (this _ (by decide)), if_neg, if_neg, if_neg (this _ (by decide))]
  · rintro (e | e) <;> exact this _ (by decide) e
  · rintro (e | e | e | e | e | e) <;> exact this _ (by decide) e

/-- Two tests on names are the same if they agree on the words and refuse all other names. -/
theorem same (L : List String) (Q : Cls → Bool) (hL : ∀ w ∈ L, w ∈ allWords) (hQ : Q .plain = false)
    (h : ∀ w ∈ allWords, (w ∈ L ↔ Q (clsOf w) = true)) (name : String) : name ∈ L ↔ Q (clsOf name) = true := by
  by_cases hn : name ∈ allWords
  · exact h name hn
  · rw [clsOf_plain name hn, hQ]
    exact ⟨fun x => absurd (hL _ x) hn, fun x => nomatch x⟩

theorem mem_word (name : String) : name ∈ Lexer.reserved ↔ clsOf name = .word := by
  simpa using same Lexer.reserved (fun c => c = .word) (by decide) (by decide) (by decide) name

theorem mem_strictKw (name : String) : name ∈ Lexer.reservedStrict ↔ (clsOf name).strictKw = true :=
  same Lexer.reservedStrict Cls.strictKw (by decide) (by decide) (by decide) name

theorem is_await (name : String) : name = "await" ↔ clsOf name = .await := by
  simpa using same ["await"] (fun c => c = .await) (by decide) (by decide) (by decide) name

theorem is_let (name : String) : name = "let" ↔ clsOf name = .let_ := by
  simpa using same ["let"] (fun c => c = .let_) (by decide) (by decide) (by decide) name

theorem is_const (name : String) : name = "const" ↔ clsOf name = .const := by
  simpa using same ["const"] (fun c => c = .const) (by decide) (by decide) (by decide) name

theorem is_yield (name : String) : name = "yield" ↔ clsOf name = .yield := by
  simpa using same ["yield"] (fun c => c = .yield) (by decide) (by decide) (by decide) name

theorem is_in (name : String) : name = "in" ↔ clsOf name = .in_ := by
  simpa using same ["in"] (fun c => c = .in_) (by decide) (by decide) (by decide) name

theorem is_private (name : String) : name = "private" ↔ clsOf name = .private_ := by
  simpa using same ["private"] (fun c => c = .private_) (by decide) (by decide) (by decide) name

theorem is_evalArgs (name : String) : (name = "eval" ∨ name = "arguments") ↔ clsOf name = .evalArgs := by
  simpa using same ["eval", "arguments"] (fun c => c = .evalArgs) (by decide) (by decide) (by decide) name

theorem mem_reservedWords (name : String) :
    name ∈ reservedWords ↔ clsOf name = .word ∨ clsOf name = .const ∨ clsOf name = .in_ := by
  simpa [or_assoc] using same reservedWords (fun c => c = .word || c = .const || c = .in_) (by decide) (by decide) (by decide) name

theorem mem_strictWords (name : String) :
    name ∈ strictWords ↔ clsOf name = .let_ ∨ clsOf name = .private_ ∨ clsOf name = .yield ∨ clsOf name = .other ∨
      clsOf name = .evalArgs := by
  simpa [or_assoc] using same strictWords
    (fun c => c = .let_ || c = .private_ || c = .yield || c = .other || c = .evalArgs) (by decide) (by decide) (by decide) name

/-- `import` is a keyword, so it never gets as far as the list. -/
theorem mem_prohibited (name : String) : (name ∈ prohibitedNames ∧ name ≠ "import") ↔
    clsOf name = .yield ∨ clsOf name = .other ∨ clsOf name = .let_ ∨ clsOf name = .const := by
  have := same (prohibitedNames.filter (· ≠ "import"))
    (fun c => c = .yield || c = .other || c = .let_ || c = .const) (by decide) (by decide) (by decide) name
  simpa [or_assoc] using this

theorem import_word (name : String) (h : name = "import") : clsOf name = .word := by
  subst h; decide

theorem classify_cls (F : Lexer.NameCfg) (name : String) (esc : Bool) :
    classify F (str name) esc = tokC F.module F.asyncAwait F.strict F.async esc (clsOf name) := by
  have h1 := (Lexer.contains_iff name).1
  have h2 := (Lexer.contains_iff name).2
  rw [mem_word] at h1
  rw [mem_strictKw] at h2
  have h3 : (str name == str "await") = true ↔ clsOf name = .await := by
    rw [beq_iff_eq, str_inj, is_await]
  unfold classify tokC
  cases F
  grind

/-- `isProhibited`, of a class that is not `word`. -/
def prohC (strict lVal async : Bool) (c : Cls) : Bool :=
  (strict && (c = .yield || c = .other || c = .let_ || c = .const)) || ((strict && lVal) && c = .evalArgs) ||
  (async && c = .await)

theorem isProhibited_cls (strict lVal async : Bool) (name : String) (h : clsOf name ≠ .word) :
    isProhibited strict lVal async name = prohC strict lVal async (clsOf name) := by
  have h1 := mem_prohibited name
  have h2 := is_evalArgs name
  have h3 := is_await name
  have h4 := import_word name
  rw [← List.contains_iff_mem] at h1
  unfold isProhibited prohC
  rw [Bool.eq_iff_iff]
  simp only [Bool.or_eq_true, Bool.and_eq_true, beq_iff_eq, decide_eq_true_eq]
  grind

end Mole.Parser.Bind
