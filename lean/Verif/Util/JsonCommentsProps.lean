import Verif.Util.JsonComments
import Verif.Span.Utf8
/-!
# Properties C39 and C40: removal of comments from JSON
-/
namespace Mole.Util.Json

open Mole.Span (isSpace White)

/-! ## Specification: JSON with comments, character by character -/

/-- What a character of the text belongs to.  `eol` is the line break ending a `//` comment. -/
inductive Cls where
  | code | str | comment | eol
  deriving DecidableEq, Repr

inductive Mode where
  | code | str | esc | line | block
  deriving DecidableEq, Repr

/-- The class of every character: strings run from quote to the next quote that is not
escaped (a backslash escapes the next character, also a backslash), `//` comments up to the
line break, `/*` comments through `*/`. -/
def classify : Mode → List Nat → List Cls
  | _, [] => []
  | .code, c :: t =>
    if c = 34 then .str :: classify .str t
    else if c = 47 then
      match t with
      | [] => [.code]
      | d :: t' =>
        if d = 47 then .comment :: .comment :: classify .line t'
        else if d = 42 then .comment :: .comment :: classify .block t'
        else .code :: classify .code (d :: t')
    else .code :: classify .code t
  | .str, c :: t =>
    .str :: classify (if c = 34 then .code else if c = 92 then .esc else .str) t
  | .esc, _ :: t => .str :: classify .str t
  | .line, c :: t =>
    if c = 10 then .eol :: classify .code t
    else if c = 13 then
      match t with
      | [] => [.eol]
      | d :: t' =>
        if d = 10 then .eol :: .eol :: classify .code t' else .eol :: classify .code (d :: t')
    else .comment :: classify .line t
  | .block, c :: t =>
    if c = 42 then
      match t with
      | [] => [.comment]
      | d :: t' =>
        if d = 47 then .comment :: .comment :: classify .code t'
        else .comment :: classify .block (d :: t')
    else .comment :: classify .block t

/-- No string of the text has an escaped backslash directly before its closing quote. -/
def noEscBackslashAtEnd : Mode → List Nat → Bool
  | _, [] => true
  | .code, c :: t =>
    if c = 34 then noEscBackslashAtEnd .str t
    else if c = 47 then
      match t with
      | [] => true
      | d :: t' =>
        if d = 47 then noEscBackslashAtEnd .line t'
        else if d = 42 then noEscBackslashAtEnd .block t'
        else noEscBackslashAtEnd .code (d :: t')
    else noEscBackslashAtEnd .code t
  | .str, c :: t =>
    noEscBackslashAtEnd (if c = 34 then .code else if c = 92 then .esc else .str) t
  | .esc, c :: t => !(c == 92 && t.head? == some 34) && noEscBackslashAtEnd .str t
  | .line, c :: t =>
    if c = 10 then noEscBackslashAtEnd .code t
    else if c = 13 then
      match t with
      | [] => true
      | d :: t' =>
        if d = 10 then noEscBackslashAtEnd .code t' else noEscBackslashAtEnd .code (d :: t')
    else noEscBackslashAtEnd .line t
  | .block, c :: t =>
    if c = 42 then
      match t with
      | [] => true
      | d :: t' =>
        if d = 47 then noEscBackslashAtEnd .code t' else noEscBackslashAtEnd .block (d :: t')
    else noEscBackslashAtEnd .block t

/-- The rest of the text after white space starts with a closing bracket. -/
def closes (rest : List Nat) : Prop :=
  (rest.dropWhile fun c => decide (White c)).head? = some '}'.toNat ∨
  (rest.dropWhile fun c => decide (White c)).head? = some ']'.toNat

instance (rest : List Nat) : Decidable (closes rest) := by unfold closes; infer_instance

/-- What is written for one character of a class, followed by `rest`. -/
def render : Cls → Nat → List Nat → List Nat
  | .str, c, _ => [c]
  | .code, c, rest => if c = 44 ∧ closes rest then [32] else [c]
  | .comment, c, _ => if c = 13 ∨ c = 10 then [10, 32] else [32]
  | .eol, c, rest => if c = 13 ∧ rest.head? = some 10 then [] else [10]

/-- One written block per character. -/
def blocks : List Cls → List Nat → List (List Nat)
  | k :: ks, c :: t => render k c t :: blocks ks t
  | _, _ => []

/-! ## Lemmas -/

theorem classify_length (m : Mode) (l : List Nat) : (classify m l).length = l.length := by
  fun_induction classify m l <;> simp_all

theorem peekNoWhite_eq (t : List Nat) (h : ∀ c ∈ t, c ≠ 0xFFFD) :
    peekNoWhite t = (t.dropWhile fun c => decide (White c)).head? := by
  rw [← Mole.Span.isSpace_eq]
  induction t with
  | nil => rfl
  | cons c t ih =>
    have hc : c ≠ 0xFFFD := h c (by simp)
    simp only [peekNoWhite, if_neg hc, List.dropWhile_cons]
    cases isSpace c
    · simp
    · simp only [if_true]; exact ih (fun c hc => h c (by simp [hc]))

theorem cl_quote (t) : classify .code (34 :: t) = .str :: classify .str t := by
  cases t <;> simp [classify]
theorem ne_quote (t) : noEscBackslashAtEnd .code (34 :: t) = noEscBackslashAtEnd .str t := by
  cases t <;> simp [noEscBackslashAtEnd]
theorem cl_other {c} (t) (h : c ≠ 34) (h' : c ≠ 47) :
    classify .code (c :: t) = .code :: classify .code t := by
  cases t <;> simp [classify, h, h']
theorem ne_other {c} (t) (h : c ≠ 34) (h' : c ≠ 47) :
    noEscBackslashAtEnd .code (c :: t) = noEscBackslashAtEnd .code t := by
  cases t <;> simp [noEscBackslashAtEnd, h, h']
theorem cl_lf (t) : classify .line (10 :: t) = .eol :: classify .code t := by
  cases t <;> simp [classify]
theorem ne_lf (t) : noEscBackslashAtEnd .line (10 :: t) = noEscBackslashAtEnd .code t := by
  cases t <;> simp [noEscBackslashAtEnd]
theorem cl_line {c} (t) (h : c ≠ 10) (h' : c ≠ 13) :
    classify .line (c :: t) = .comment :: classify .line t := by
  cases t <;> simp [classify, h, h']
theorem ne_line {c} (t) (h : c ≠ 10) (h' : c ≠ 13) :
    noEscBackslashAtEnd .line (c :: t) = noEscBackslashAtEnd .line t := by
  cases t <;> simp [noEscBackslashAtEnd, h, h']
theorem cl_block {c} (t) (h : c ≠ 42) :
    classify .block (c :: t) = .comment :: classify .block t := by
  cases t <;> simp [classify, h]
theorem ne_block {c} (t) (h : c ≠ 42) :
    noEscBackslashAtEnd .block (c :: t) = noEscBackslashAtEnd .block t := by
  cases t <;> simp [noEscBackslashAtEnd, h]
/-- Scanner state against specification mode. -/
def Rel : St → Nat → Mode → List Nat → Prop
  | .normal, _, m, _ => m = .code
  | .line, _, m, _ => m = .line
  | .block, _, m, _ => m = .block
  | .str, pr, m, l => (m = .str ∧ (pr = 92 → l.head? ≠ some 34)) ∨ (m = .esc ∧ pr = 92)

theorem loop_eq (n : Nat) : ∀ (l : List Nat) (st : St) (pr : Nat) (m : Mode), l.length ≤ n →
    (∀ c ∈ l, c ≠ 0xFFFD) → Rel st pr m l → noEscBackslashAtEnd m l = true →
    loop st pr l = some (blocks (classify m l) l).flatten := by
  induction n with
  | zero =>
    intro l st pr m hl _ _ _
    have : l = [] := List.length_eq_zero_iff.mp (by omega)
    subst this
    cases m <;> simp [loop, classify, blocks]
  | succ n ih =>
    intro l st pr m hl hv hr hesc
    cases l with
    | nil => cases m <;> simp [loop, classify, blocks]
    | cons c t =>
      have hc : c ≠ 0xFFFD := hv c (by simp)
      have ht : ∀ c ∈ t, c ≠ 0xFFFD := fun c hc => hv c (by simp [hc])
      have hlt : t.length ≤ n := by simpa using hl
      have hpk := peekNoWhite_eq t ht
      cases st with
      | normal =>
        obtain rfl : m = .code := hr
        by_cases h34 : c = 34
        · subst h34
          rw [ne_quote] at hesc
          have := ih t .str 34 .str hlt ht (.inl ⟨rfl, fun h => absurd h (by decide)⟩) hesc
          rw [loop, if_neg hc, cl_quote]
          simp [step, blocks, render, this]
        · by_cases h47 : c = 47
          · subst h47
            cases t with
            | nil =>
              simp [loop, step, classify, blocks, render]
            | cons d t' =>
              have ht' : ∀ c ∈ t', c ≠ 0xFFFD := fun c hc => ht c (by simp [hc])
              have hlt' : t'.length ≤ n := by simp at hlt; omega
              by_cases hd : d = 47
              · subst hd
                simp only [noEscBackslashAtEnd, if_true, if_neg h34] at hesc
                have := ih t' .line pr .line hlt' ht' rfl hesc
                simp [loop, step, classify, blocks, render, this]
              · by_cases hd2 : d = 42
                · subst hd2
                  simp only [noEscBackslashAtEnd, if_true, if_neg h34, if_neg hd] at hesc
                  have := ih t' .block pr .block hlt' ht' rfl hesc
                  simp [loop, step, classify, blocks, render, this]
                · simp only [noEscBackslashAtEnd, if_true, if_neg h34, if_neg hd, if_neg hd2] at hesc
                  have := ih (d :: t') .normal 47 .code hlt ht rfl
                    (by simpa only [noEscBackslashAtEnd] using hesc)
                  rw [loop, if_neg hc]
                  simp only [step, List.head?_cons, Option.some.injEq, hd, hd2, if_false]
                  simp [this, classify, hd, hd2, blocks, render]
          · have hesc' : noEscBackslashAtEnd .code t = true := by
              rwa [ne_other t h34 h47] at hesc
            by_cases hcm : c = 44 ∧ closes t
            · have := ih t .normal pr .code hlt ht rfl hesc'
              obtain ⟨rfl, hcl⟩ := hcm
              have hp : peekNoWhite t = some 125 ∨ peekNoWhite t = some 93 := by
                rw [hpk]; exact hcl
              rw [loop, if_neg hc, cl_other t h34 h47]
              simp [step, hp, this, blocks, render, hcl]
            · have := ih t .normal c .code hlt ht rfl hesc'
              have hp : ¬ (c = 44 ∧ (peekNoWhite t = some 125 ∨ peekNoWhite t = some 93)) := by
                rw [hpk]; exact hcm
              rw [loop, if_neg hc, cl_other t h34 h47]
              simp [step, hp, this, blocks, render, hcm, h34, h47]
      | str =>
        rcases hr with ⟨rfl, hpr⟩ | ⟨rfl, rfl⟩
        · by_cases h34 : c = 34
          · subst h34
            have hpr' : pr ≠ 92 := fun h => hpr h rfl
            simp only [noEscBackslashAtEnd, if_true] at hesc
            have := ih t .normal 34 .code hlt ht rfl hesc
            rw [loop, if_neg hc]
            simp [step, hpr', this, classify, blocks, render]
          · have hstep : step .str pr c t = ([c], false, .str, c) := by
              simp [step, h34]
            rw [loop, if_neg hc, hstep]
            by_cases h92 : c = 92
            · subst h92
              simp only [noEscBackslashAtEnd, if_true, if_neg h34] at hesc
              have := ih t .str 92 .esc hlt ht (.inr ⟨rfl, rfl⟩) hesc
              simp [this, classify, blocks, render]
            · simp only [noEscBackslashAtEnd, if_neg h92, if_neg h34] at hesc
              have := ih t .str c .str hlt ht (.inl ⟨rfl, fun h => absurd h h92⟩) hesc
              simp [this, classify, blocks, render, h92, h34]
        · simp only [noEscBackslashAtEnd, Bool.and_eq_true, Bool.not_eq_true',
            Bool.and_eq_false_iff] at hesc
          have hstep : step .str 92 c t = ([c], false, .str, c) := by
            by_cases h34 : c = 34 <;> simp [step, h34]
          rw [loop, if_neg hc, hstep]
          have := ih t .str c .str hlt ht (.inl ⟨rfl, by
            intro h92 h34
            rcases hesc.1 with h | h
            · simp [h92] at h
            · simp [h34] at h⟩) hesc.2
          simp [this, classify, blocks, render]
      | line =>
        obtain rfl : m = .line := hr
        by_cases h10 : c = 10
        · subst h10
          rw [ne_lf] at hesc
          have := ih t .normal pr .code hlt ht rfl hesc
          rw [loop, if_neg hc, cl_lf]
          simp [step, this, blocks, render]
        · by_cases h13 : c = 13
          · subst h13
            cases t with
            | nil => simp [loop, step, classify, blocks, render]
            | cons d t' =>
              have ht' : ∀ c ∈ t', c ≠ 0xFFFD := fun c hc => ht c (by simp [hc])
              have hlt' : t'.length ≤ n := by simp at hlt; omega
              by_cases hd : d = 10
              · subst hd
                simp only [noEscBackslashAtEnd, if_true, if_neg h10] at hesc
                have := ih t' .normal pr .code hlt' ht' rfl hesc
                simp [loop, step, classify, blocks, render, this]
              · simp only [noEscBackslashAtEnd, if_true, if_neg h10, if_neg hd] at hesc
                have := ih (d :: t') .normal pr .code hlt ht rfl
                  (by simpa only [noEscBackslashAtEnd] using hesc)
                rw [loop, if_neg hc]
                simp only [step, List.head?_cons, Option.some.injEq, hd]
                simp [this, classify, hd, blocks, render]
          · rw [ne_line t h10 h13] at hesc
            have hstep : step .line pr c t = ([32], false, .line, c) := by
              by_cases h34 : c = 34 <;> simp [step, h34, h10, h13]
            have := ih t .line c .line hlt ht rfl hesc
            rw [loop, if_neg hc, hstep, cl_line t h10 h13]
            simp [this, blocks, render, h10, h13]
      | block =>
        obtain rfl : m = .block := hr
        by_cases h42 : c = 42
        · subst h42
          cases t with
          | nil => simp [loop, step, classify, blocks, render]
          | cons d t' =>
            have ht' : ∀ c ∈ t', c ≠ 0xFFFD := fun c hc => ht c (by simp [hc])
            have hlt' : t'.length ≤ n := by simp at hlt; omega
            by_cases hd : d = 47
            · subst hd
              simp only [noEscBackslashAtEnd, if_true] at hesc
              have := ih t' .normal pr .code hlt' ht' rfl hesc
              simp [loop, step, classify, blocks, render, this]
            · simp only [noEscBackslashAtEnd, if_true, if_neg hd] at hesc
              have := ih (d :: t') .block 42 .block hlt ht rfl
                (by simpa only [noEscBackslashAtEnd] using hesc)
              rw [loop, if_neg hc]
              simp only [step, List.head?_cons, Option.some.injEq, hd]
              simp [this, classify, hd, blocks, render]
        · rw [ne_block t h42] at hesc
          have := ih t .block c .block hlt ht rfl hesc
          have hstep : step .block pr c t =
              (if c = 13 ∨ c = 10 then [10, 32] else [32], false, .block, c) := by
            by_cases h34 : c = 34 <;> simp [step, h34, h42]
          rw [loop, if_neg hc, hstep, cl_block t h42]
          simp [this, blocks, render]

theorem blocks_spec (ks : List Cls) (l : List Nat) (h : ks.length = l.length) :
    (blocks ks l).length = l.length ∧ ∀ i (hi : i < l.length) (hb : i < (blocks ks l).length)
      (hk : i < ks.length), (blocks ks l)[i] = render ks[i] l[i] (l.drop (i + 1)) := by
  induction l generalizing ks with
  | nil => cases ks <;> simp [blocks]
  | cons c t ih =>
    cases ks with
    | nil => simp at h
    | cons k ks =>
      obtain ⟨h1, h2⟩ := ih ks (by simpa using h)
      refine ⟨by simp [blocks, h1], ?_⟩
      intro i hi hb hk
      cases i with
      | zero => simp [blocks]
      | succ i =>
        simp only [blocks, List.getElem_cons_succ, List.drop_succ_cons]
        exact h2 i (by simpa using hi) (by simpa [blocks] using hb) (by simpa using hk)

/-- Reading the output of a text left in mode `m`: comments have become white space. -/
def outMode : Mode → Mode
  | .str => .str
  | .esc => .esc
  | _ => .code

theorem out_head (t : List Nat) (d : Nat) (h : t.head? ≠ some d) (hd : d ≠ 32) :
    (blocks (classify .code t) t).flatten.head? ≠ some d ∨ t.head? = some 47 := by
  cases t with
  | nil => left; simp [blocks, classify]
  | cons c t =>
    by_cases h47 : c = 47
    · right; simp [h47]
    · left
      have h : c ≠ d := by simpa using h
      by_cases h34 : c = 34
      · subst h34
        rw [cl_quote]; simp [blocks, render, h]
      · rw [cl_other t h34 h47]
        simp only [blocks, render]
        split
        · simp [Ne.symm hd]
        · simp [h]

theorem no_comment_left (n : Nat) : ∀ (l : List Nat) (m : Mode), l.length ≤ n →
    Cls.comment ∉ classify (outMode m) (blocks (classify m l) l).flatten := by
  induction n with
  | zero =>
    intro l m hl
    have : l = [] := List.length_eq_zero_iff.mp (by omega)
    subst this
    cases m <;> simp [classify, blocks, outMode]
  | succ n ih =>
    intro l m hl
    cases l with
    | nil => cases m <;> simp [classify, blocks, outMode]
    | cons c t =>
      have hlt : t.length ≤ n := by simpa using hl
      have sp : ∀ u, classify .code (32 :: u) = .code :: classify .code u :=
        fun u => cl_other u (by decide) (by decide)
      have lf : ∀ u, classify .code (10 :: u) = .code :: classify .code u :=
        fun u => cl_other u (by decide) (by decide)
      cases m with
      | code =>
        by_cases h34 : c = 34
        · subst h34
          have := ih t .str hlt
          rw [cl_quote]
          simp only [blocks, render, List.flatten_cons, List.singleton_append, outMode]
          rw [cl_quote]
          simp only [List.mem_cons, reduceCtorEq, false_or]
          exact this
        · by_cases h47 : c = 47
          · subst h47
            cases t with
            | nil => simp [classify, blocks, outMode, render]
            | cons d t' =>
              have hlt' : t'.length ≤ n := by simp at hlt; omega
              by_cases hd : d = 47
              · subst hd
                have := ih t' .line hlt'
                simp only [outMode] at this
                simp [classify, blocks, render, outMode, sp, this]
              · by_cases hd2 : d = 42
                · subst hd2
                  have := ih t' .block hlt'
                  simp only [outMode] at this
                  simp [classify, blocks, render, outMode, sp, this]
                · have := ih (d :: t') .code hlt
                  simp only [outMode] at this
                  have e : classify .code (47 :: d :: t') = .code :: classify .code (d :: t') := by
                    simp [classify, hd, hd2]
                  rw [e]
                  have eb : blocks (.code :: classify .code (d :: t')) (47 :: d :: t') =
                      [47] :: blocks (classify .code (d :: t')) (d :: t') := by
                    simp [blocks, render]
                  rw [eb]
                  simp only [List.flatten_cons, List.singleton_append, outMode]
                  have h1 := (out_head (d :: t') 47 (by simpa using hd) (by decide)).resolve_right
                    (by simpa using hd)
                  have h2 := (out_head (d :: t') 42 (by simpa using hd2) (by decide)).resolve_right
                    (by simpa using hd)
                  generalize (blocks (classify .code (d :: t')) (d :: t')).flatten = u at *
                  cases u with
                  | nil => simp [classify]
                  | cons x u =>
                    have h1 : x ≠ 47 := by simpa using h1
                    have h2 : x ≠ 42 := by simpa using h2
                    have : classify .code (47 :: x :: u) = .code :: classify .code (x :: u) := by
                      simp [classify, h1, h2]
                    rw [this]
                    simp [*]
          · have := ih t .code hlt
            simp only [outMode] at this
            rw [cl_other t h34 h47]
            simp only [blocks, render, List.flatten_cons, outMode]
            split
            · simp [sp, this]
            · simp only [List.singleton_append]
              rw [cl_other _ h34 h47]
              simp [this]
      | str =>
        simp only [classify, blocks, render, List.flatten_cons, List.singleton_append, outMode,
          List.mem_cons, reduceCtorEq, false_or]
        by_cases h34 : c = 34
        · have := ih t .code hlt
          simpa [h34, outMode] using this
        · by_cases h92 : c = 92
          · have := ih t .esc hlt
            simpa [h92, outMode] using this
          · have := ih t .str hlt
            simpa [h34, h92, outMode] using this
      | esc =>
        simp only [classify, blocks, render, List.flatten_cons, List.singleton_append, outMode,
          List.mem_cons, reduceCtorEq, false_or]
        exact ih t .str hlt
      | line =>
        by_cases h10 : c = 10
        · subst h10
          have := ih t .code hlt
          simp only [outMode] at this
          rw [cl_lf]
          simp [blocks, render, outMode, lf, this]
        · by_cases h13 : c = 13
          · subst h13
            cases t with
            | nil => simp [classify, blocks, outMode, render]
            | cons d t' =>
              have hlt' : t'.length ≤ n := by simp at hlt; omega
              by_cases hd : d = 10
              · subst hd
                have := ih t' .code hlt'
                simp only [outMode] at this
                simp [classify, blocks, render, outMode, lf, this]
              · have := ih (d :: t') .code hlt
                simp only [outMode] at this
                have e : classify .line (13 :: d :: t') = .eol :: classify .code (d :: t') := by
                  simp [classify, hd]
                rw [e]
                have eb : blocks (.eol :: classify .code (d :: t')) (13 :: d :: t') =
                    [10] :: blocks (classify .code (d :: t')) (d :: t') := by
                  simp [blocks, render, hd]
                rw [eb]
                simp only [List.flatten_cons, List.singleton_append, outMode]
                rw [lf]
                simp [this]
          · have := ih t .line hlt
            simp only [outMode] at this
            rw [cl_line t h10 h13]
            simp [blocks, render, outMode, h10, h13, sp, this]
      | block =>
        by_cases h42 : c = 42
        · subst h42
          cases t with
          | nil => simp [classify, blocks, outMode, render]
          | cons d t' =>
            have hlt' : t'.length ≤ n := by simp at hlt; omega
            by_cases hd : d = 47
            · subst hd
              have := ih t' .code hlt'
              simp only [outMode] at this
              simp [classify, blocks, render, outMode, sp, this]
            · have := ih (d :: t') .block hlt
              simp only [outMode] at this
              have e : classify .block (42 :: d :: t') = .comment :: classify .block (d :: t') := by
                simp [classify, hd]
              rw [e]
              have eb : blocks (.comment :: classify .block (d :: t')) (42 :: d :: t') =
                  [32] :: blocks (classify .block (d :: t')) (d :: t') := by
                simp [blocks, render]
              rw [eb]
              simp only [List.flatten_cons, List.singleton_append, outMode]
              rw [sp]
              simp [this]
        · have := ih t .block hlt
          simp only [outMode] at this
          rw [cl_block t h42]
          simp only [blocks, render, List.flatten_cons, outMode]
          split <;> simp [sp, lf, this]

theorem flatten_singletons (bs : List (List Nat)) (f : Nat → Nat)
    (h : ∀ i (hi : i < bs.length), bs[i] = [f i]) :
    bs.flatten.length = bs.length ∧ ∀ i (hi : i < bs.flatten.length), bs.flatten[i] = f i := by
  induction bs generalizing f with
  | nil => simp
  | cons b bs ih =>
    obtain ⟨h1, h2⟩ := ih (fun i => f (i + 1)) (fun i hi => by
      have := h (i + 1) (by simpa using hi)
      simpa using this)
    have hb : b = [f 0] := h 0 (by simp)
    subst hb
    refine ⟨by rw [List.flatten_cons, List.length_append, h1]; simp [Nat.add_comm], ?_⟩
    intro i hi
    cases i with
    | zero => simp
    | succ i =>
      simp only [List.flatten_cons, List.singleton_append, List.getElem_cons_succ]
      exact h2 i (by rw [List.flatten_cons] at hi; simpa using hi)

theorem loop_eol (l : List Nat) (m : Mode) : ∀ (i : Nat) (hi : i < l.length)
    (hk : i < (classify m l).length), (classify m l)[i] = .eol → l[i] = 10 ∨ l[i] = 13 := by
  fun_induction classify m l <;> intro i hi hk h <;>
    rcases i with _ | _ | i <;> grind

/-! ## C39 -/

/-- **C39.**  Full statement: for every text, characters outside comments and trailing commas
are copied, comments become white space and none is left.  Proved for every decodable text
none of whose strings ends in an escaped backslash (`string_end_violated` is the missing
case): the output is the concatenation of one block per character, `render` of its class; in
particular characters of strings are copied, and the classes of the output contain no
comment. -/
theorem removeJsonComments_partial (l : List Nat) (hv : ∀ c ∈ l, c ≠ 0xFFFD)
    (he : noEscBackslashAtEnd .code l = true) :
    ∃ bs : List (List Nat), bs.length = l.length ∧ removeJsonComments l = some bs.flatten ∧
      (∀ i (hi : i < l.length) (hb : i < bs.length) (hk : i < (classify .code l).length),
        bs[i] = render (classify .code l)[i] l[i] (l.drop (i + 1))) ∧
      Cls.comment ∉ classify .code bs.flatten := by
  obtain ⟨h1, h2⟩ := blocks_spec (classify .code l) l (classify_length _ _)
  exact ⟨_, h1, loop_eq l.length l .normal 0xFFFD .code (Nat.le_refl _) hv rfl he, h2,
    no_comment_left l.length l .code (Nat.le_refl _)⟩

/-- `{"a":"//\"" /*x*/,//y⏎}`, a text meeting the hypotheses. -/
example : noEscBackslashAtEnd .code
    [123, 34, 97, 34, 58, 34, 47, 47, 92, 34, 34, 32, 47, 42, 120, 42, 47, 44, 47, 47, 121, 10, 125]
    = true ∧ removeJsonComments
    [123, 34, 97, 34, 58, 34, 47, 47, 92, 34, 34, 32, 47, 42, 120, 42, 47, 44, 47, 47, 121, 10, 125]
    = some [123, 34, 97, 34, 58, 34, 47, 47, 92, 34, 34, 32, 32, 32, 32, 32, 32, 44, 32, 32, 32, 10, 125]
    := by decide

/-- **C39.**  A text without comments and trailing commas (and without a string ending in an
escaped backslash) comes back unchanged. -/
theorem removeJsonComments_id_partial (l : List Nat) (hv : ∀ c ∈ l, c ≠ 0xFFFD)
    (he : noEscBackslashAtEnd .code l = true)
    (hc : ∀ i (hi : i < l.length) (hk : i < (classify .code l).length),
      (classify .code l)[i] = .str ∨
      (classify .code l)[i] = .code ∧ ¬ (l[i] = 44 ∧ closes (l.drop (i + 1)))) :
    removeJsonComments l = some l := by
  obtain ⟨bs, h1, h2, h3, _⟩ := removeJsonComments_partial l hv he
  rw [h2]
  congr 1
  obtain ⟨f1, f2⟩ := flatten_singletons bs (fun i => l[i]?.getD 0) (by
    intro i hi
    have hil : i < l.length := by omega
    have hik : i < (classify .code l).length := by rw [classify_length]; exact hil
    rw [h3 i hil hi hik]
    rcases hc i hil hik with h | ⟨h, hn⟩
    · simp [h, render, hil]
    · rw [h]; simp only [render]; rw [if_neg hn]; simp [hil])
  apply List.ext_getElem (by omega)
  intro i hi hl
  rw [f2 i hi]; simp [hl]

/-- **C39 is violated** when a string ends in an escaped backslash: for `"\\"/**/` the
comment after the string is not removed. -/
theorem string_end_violated :
    let l := [34, 92, 92, 34, 47, 42, 42, 47]
    Cls.comment ∈ classify .code l ∧ removeJsonComments l = some l := by
  decide

/-- **C39 is violated** for a text containing U+FFFD, which is legal in JSON: error. -/
theorem replacement_char_violated : removeJsonComments [34, 0xFFFD, 34] = none := by decide

/-! ## C40 -/

/-- Length of the UTF-8 encoding of a code point. -/
def utf8Len (c : Nat) : Nat :=
  if c < 0x80 then 1 else if c < 0x800 then 2 else if c < 0x10000 then 3 else 4

/-- **C40.**  Full statement: the output has the same length and line breaks as the input, and
removing again changes nothing.  Proved for decodable texts without the string end above
whose comments consist of ASCII characters other than line breaks and whose `//` comments end
in LF: same length, and every position holds the same character or, for a comment or a
trailing comma, a blank; hence bytes and line feeds are at the same offsets.  Missing cases:
`block_linefeed_violated`, `non_ascii_violated`, `crlf_violated`, `fixpoint_violated`. -/
theorem removeJsonComments_offsets_partial (l : List Nat) (hv : ∀ c ∈ l, c ≠ 0xFFFD)
    (he : noEscBackslashAtEnd .code l = true)
    (hc : ∀ i (hi : i < l.length) (hk : i < (classify .code l).length),
      ((classify .code l)[i] = .comment → l[i] < 128 ∧ l[i] ≠ 13 ∧ l[i] ≠ 10) ∧
      ((classify .code l)[i] = .eol → l[i] ≠ 13)) :
    ∃ out, removeJsonComments l = some out ∧ out.length = l.length ∧
      ∀ i (hi : i < l.length) (ho : i < out.length) (hk : i < (classify .code l).length),
        (out[i] = l[i] ∨ out[i] = 32 ∧ ((classify .code l)[i] = .comment ∨ l[i] = 44)) ∧
        (out[i] = 10 ↔ l[i] = 10) ∧ utf8Len out[i] = utf8Len l[i] := by
  obtain ⟨bs, h1, h2, h3, _⟩ := removeJsonComments_partial l hv he
  refine ⟨_, h2, ?_⟩
  have key : ∀ i (hi : i < bs.length), ∃ x, bs[i] = [x] ∧
      ∀ (hl : i < l.length) (hk : i < (classify .code l).length),
        (x = l[i] ∨ x = 32 ∧ ((classify .code l)[i] = .comment ∨ l[i] = 44)) ∧
        (x = 10 ↔ l[i] = 10) ∧ utf8Len x = utf8Len l[i] := by
    intro i hi
    have hil : i < l.length := by omega
    have hik : i < (classify .code l).length := by rw [classify_length]; exact hil
    have hcls : ∀ k, (classify .code l)[i] = k → k = .eol → l[i] = 10 := by
      intro k hk he
      subst he
      have := loop_eol l .code i hil hik hk
      rcases this with h | h
      · exact h
      · exact absurd h ((hc i hil hik).2 hk)
    rw [h3 i hil hi hik]
    cases hk : (classify .code l)[i] with
    | code =>
      simp only [render]
      split
      · rename_i h
        refine ⟨32, rfl, fun _ _ => ⟨.inr ⟨rfl, .inr h.1⟩, ?_, ?_⟩⟩
        · rw [h.1]; decide
        · rw [h.1]; decide
      · exact ⟨l[i], rfl, fun _ _ => ⟨.inl rfl, Iff.rfl, rfl⟩⟩
    | str => exact ⟨l[i], rfl, fun _ _ => ⟨.inl rfl, Iff.rfl, rfl⟩⟩
    | comment =>
      obtain ⟨a, b, c⟩ := (hc i hil hik).1 hk
      simp only [render, b, c, or_self, if_false]
      refine ⟨32, rfl, fun _ _ => ⟨.inr ⟨rfl, .inl hk⟩, ?_, ?_⟩⟩
      · simp
      · simp [utf8Len, a]
    | eol =>
      have := hcls _ hk rfl
      simp only [render, this]
      exact ⟨10, by simp, fun _ _ => ⟨.inl rfl, by simp, rfl⟩⟩
  obtain ⟨f1, f2⟩ := flatten_singletons bs (fun i => (bs[i]?.getD [])[0]?.getD 0) (by
    intro i hi
    obtain ⟨x, hx, _⟩ := key i hi
    simp [hi, hx])
  refine ⟨by omega, ?_⟩
  intro i hi ho hk
  have hib : i < bs.length := by omega
  obtain ⟨x, hx, hp⟩ := key i hib
  rw [f2 i ho]
  simp only [hib, List.getElem?_eq_getElem, Option.getD_some, hx, List.getElem?_cons_zero]
  exact hp hi hk

/-- `[1/*x*/,//y⏎2]` meets the hypotheses. -/
example :
    let l := [91, 49, 47, 42, 120, 42, 47, 44, 47, 47, 121, 10, 50, 93]
    noEscBackslashAtEnd .code l = true ∧
    (((classify .code l).zip l).all fun p =>
      (p.1 != .comment || (p.2 < 128 && p.2 != 13 && p.2 != 10)) && (p.1 != .eol || p.2 != 13)) = true
    ∧ .comment ∈ classify .code l ∧ .eol ∈ classify .code l := by
  decide

/-- **C40 is violated**: a line feed in a block comment becomes two characters. -/
theorem block_linefeed_violated :
    removeJsonComments [47, 42, 10, 42, 47, 49] = some [32, 32, 10, 32, 32, 32, 49] := by decide

/-- **C40 is violated**: a two-byte character in a comment becomes one byte. -/
theorem non_ascii_violated :
    removeJsonComments [47, 42, 0xe9, 42, 47] = some [32, 32, 32, 32, 32] ∧
    ([47, 42, 0xe9, 42, 47].map utf8Len).sum = 6 ∧ ([32, 32, 32, 32, 32].map utf8Len).sum = 5 := by
  decide

/-- **C40 is violated**: the CRLF after a `//` comment becomes one character. -/
theorem crlf_violated : removeJsonComments [47, 47, 13, 10, 49] = some [32, 32, 10, 49] := by
  decide

/-- **C40 is violated**: `[1,/**/]` needs two rounds to lose its trailing comma. -/
theorem fixpoint_violated :
    removeJsonComments [91, 49, 44, 47, 42, 42, 47, 93] =
      some [91, 49, 44, 32, 32, 32, 32, 93] ∧
    removeJsonComments [91, 49, 44, 32, 32, 32, 32, 93] =
      some [91, 49, 32, 32, 32, 32, 32, 93] := by
  decide

end Mole.Util.Json
