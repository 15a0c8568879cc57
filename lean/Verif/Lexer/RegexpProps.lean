import Verif.Lexer.Regexp
import Verif.Lexer.NameProps
import Verif.Lexer.EscapeProps
/-!
# C14: regular-expression literals
-/
namespace Mole.Lexer
open Spec

/-- What may follow a backslash: one character that ends no line, where `u` needs four hexadecimal
digits or a code point in braces. -/
inductive RegexpEscape : List Nat → Prop
  | one {c} : ¬ LineTerm c → c ≠ 'u'.toNat → RegexpEscape [c]
  | u4 {cs vs} : HexDigits cs vs → cs.length = 4 → RegexpEscape ('u'.toNat :: cs)
  | brace {cs vs} : HexDigits cs vs → cs ≠ [] → value 16 vs ≤ 0x10FFFF →
      RegexpEscape ('u'.toNat :: '{'.toNat :: cs ++ ['}'.toNat])

/-- A character that may stand in a regular expression: no line terminator, no backslash, not the
replacement character (for which the decoder's error value is taken). -/
def RegexpChar (c : Nat) : Prop := ¬ LineTerm c ∧ c ≠ '\\'.toNat ∧ c ≠ 0xFFFD

/-- The inside of a character class. -/
inductive RegexpClass : List Nat → Prop
  | nil : RegexpClass []
  | ch {c s} : RegexpChar c → c ≠ ']'.toNat → RegexpClass s → RegexpClass (c :: s)
  | esc {q s} : RegexpEscape q → RegexpClass s → RegexpClass ('\\'.toNat :: q ++ s)

/-- The text of a regular expression that closes `d` more parentheses than it opens.  A slash may
stand in it only inside a class or, if `g`, inside parentheses. -/
inductive RegexpBody (g : Bool) : Nat → List Nat → Prop
  | nil : RegexpBody g 0 []
  | ch {d c s} : RegexpChar c → c ∉ ['('.toNat, ')'.toNat, '['.toNat, '/'.toNat] →
      RegexpBody g d s → RegexpBody g d (c :: s)
  | slash {d s} : g = true → 0 < d → RegexpBody g d s → RegexpBody g d ('/'.toNat :: s)
  | opn {d s} : RegexpBody g (d + 1) s → RegexpBody g d ('('.toNat :: s)
  | cls {d s} : RegexpBody g d s → RegexpBody g (d + 1) (')'.toNat :: s)
  | esc {d q s} : RegexpEscape q → RegexpBody g d s → RegexpBody g d ('\\'.toNat :: q ++ s)
  | class {d q s} : RegexpClass q → RegexpBody g d s →
      RegexpBody g d ('['.toNat :: q ++ ']'.toNat :: s)

instance (c : Nat) : Decidable (LineTerm c) := by
  unfold LineTerm
  infer_instance

/-- A body that starts inside a class, or not. -/
def BodyIn (d : Nat) (rng : Bool) (p : List Nat) : Prop :=
  if rng then ∃ q s, p = q ++ 93 :: s ∧ RegexpClass q ∧ RegexpBody true d s
  else RegexpBody true d p

def stack (d : Nat) (rng : Bool) : List Nat :=
  (if rng then [91] else []) ++ List.replicate d 40

theorem step_in (c d n : Nat) (hn : 0 < n) :
    regexpStep c (stack d true) true n =
      .ok (some (if c = 93 then (stack d false, false) else (stack d true, true))) := by
  by_cases h : c = 93
  · simp [regexpStep, stack, h, hn]
  · simp [regexpStep, stack, h]

theorem step_out (c d n : Nat) :
    regexpStep c (stack d false) false n =
      if c = 40 then .ok (some (stack (d + 1) false, false))
      else if c = 91 then .ok (some (stack d true, true))
      else if c = 41 then
        match d with
        | 0 => .error .unterminatedRegexp
        | d + 1 => .ok (some (stack d false, false))
      else if c = 47 ∧ d = 0 then .ok none
      else .ok (some (stack d false, false)) := by
  by_cases h1 : c = 40
  · simp [regexpStep, stack, h1, List.replicate_succ]
  by_cases h2 : c = 91
  · simp [regexpStep, stack, h2]
  by_cases h3 : c = 41
  · cases d with
    | zero => simp [regexpStep, stack, h3]
    | succ d => simp [regexpStep, stack, h3, List.replicate_succ]
  by_cases h4 : c = 93
  · cases d with
    | zero => simp [regexpStep, stack, h4]
    | succ d => simp [regexpStep, stack, h4, List.replicate_succ]
  · simp [regexpStep, stack, h1, h2, h3, h4]

theorem escape_u {s : List Nat} {v : Nat} {rest : List Nat}
    (h : readUnicodeEscapeSeq (fun _ => true) false s = (v, none, rest)) :
    ∃ q, 117 :: s = q ++ rest ∧ RegexpEscape q := by
  rcases readUnicode_inv h with ⟨cs, rfl, h2, h3, -⟩ | ⟨cs, rfl, h2, h3, rfl, h5⟩
  · exact ⟨117 :: cs, rfl, .u4 ((hexDigits_iff _ _).2 ⟨h3, rfl⟩) h2⟩
  · exact ⟨117 :: 123 :: cs ++ [125], by simp, .brace ((hexDigits_iff _ _).2 ⟨h3, rfl⟩) h2 h5⟩

theorem bodyIn_esc {d : Nat} {rng : Bool} {q p : List Nat} (hq : RegexpEscape q)
    (h : BodyIn d rng p) : BodyIn d rng (92 :: (q ++ p)) := by
  cases rng with
  | false => exact .esc hq h
  | true =>
    obtain ⟨a, b, rfl, h1, h2⟩ := h
    exact ⟨92 :: q ++ a, b, by simp, .esc hq h1, h2⟩

theorem regexpLoop_sound (fuel : Nat) (d : Nat) (rng : Bool) (n : Nat) (s r : List Nat)
    (hn : rng = true → 0 < n)
    (h : regexpLoop fuel (stack d rng) rng n s = some (.ok r)) :
    ∃ p rest, s = p ++ r ∧ r = 47 :: rest ∧ BodyIn d rng p := by
  induction fuel generalizing d rng n s with
  | zero => cases h
  | succ fuel ih =>
    cases s with
    | nil => cases h
    | cons c t =>
      simp only [regexpLoop] at h
      split at h
      · cases h
      rename_i hre
      split at h
      · cases h
      rename_i hlt
      have hlt' : ¬ LineTerm c := fun hh => hlt ((isLT_iff c).2 hh)
      split at h
      · rename_i h92
        subst h92
        split at h
        · rename_i hu
          cases t with
          | nil => cases hu
          | cons e t =>
            simp only [List.head?_cons, Option.some.injEq] at hu
            subst hu
            simp only [List.tail_cons] at h
            split at h
            · cases h
            · rename_i v rest hv
              obtain ⟨q, hq1, hq2⟩ := escape_u hv
              obtain ⟨p, rest', rfl, hr, hp⟩ := ih d rng n rest hn h
              exact ⟨92 :: (q ++ p), rest', by rw [hq1]; simp, hr, bodyIn_esc hq2 hp⟩
        · rename_i hu
          cases t with
          | nil =>
            simp only [List.head?_nil, onRune, Bool.false_eq_true, if_false, rd] at h
            cases fuel <;> cases h
          | cons e t =>
            by_cases hel : isLT e = true
            · rw [if_pos (show onRune isLT (e :: t).head? = true from hel)] at h
              cases fuel with
              | zero => cases h
              | succ fuel =>
                simp only [regexpLoop] at h
                split at h
                · cases h
                · cases h
            · rw [if_neg (show ¬ onRune isLT (e :: t).head? = true from hel)] at h
              have hel' : ¬ LineTerm e := fun hh => hel ((isLT_iff e).2 hh)
              have he0d : e ≠ 0x0d := fun hh => hel' (by simp [LineTerm, hh])
              rw [rd_cons he0d] at h
              obtain ⟨p, rest', rfl, hr, hp⟩ := ih d rng n t hn h
              refine ⟨92 :: ([e] ++ p), rest', by simp, hr, bodyIn_esc (.one hel' ?_) hp⟩
              intro hh
              exact hu (by simp [hh])
      · rename_i h92
        have hch : RegexpChar c := ⟨hlt', h92, hre⟩
        cases rng with
        | true =>
          rw [step_in c d n (hn rfl)] at h
          by_cases h93 : c = 93
          · simp only [h93, if_true, Bool.false_eq_true, if_false] at h
            obtain ⟨p, rest', rfl, hr, hp⟩ := ih d false n t (by simp) h
            exact ⟨93 :: p, rest', by simp [h93], hr, [], p, rfl, .nil, hp⟩
          · simp only [h93, if_false, if_true] at h
            obtain ⟨p, rest', rfl, hr, a, b, rfl, h1, h2⟩ := ih d true (n + 1) t (by simp) h
            exact ⟨c :: (a ++ 93 :: b), rest', by simp, hr, c :: a, b, rfl, .ch hch h93 h1, h2⟩
        | false =>
          rw [step_out c d n] at h
          by_cases h1 : c = 40
          · simp only [h1, if_true, Bool.false_eq_true, if_false] at h
            obtain ⟨p, rest', rfl, hr, hp⟩ := ih (d + 1) false n t (by simp) h
            exact ⟨40 :: p, rest', by simp [h1], hr, .opn hp⟩
          by_cases h2 : c = 91
          · simp only [h2, if_true, Nat.reduceEqDiff, if_false] at h
            obtain ⟨p, rest', rfl, hr, a, b, rfl, h3, h4⟩ := ih d true (n + 1) t (by simp) h
            exact ⟨91 :: (a ++ 93 :: b), rest', by simp [h2], hr, .class h3 h4⟩
          by_cases h3 : c = 41
          · cases d with
            | zero => simp [h3] at h
            | succ d =>
              simp only [h3, if_true, Nat.reduceEqDiff, if_false, Bool.false_eq_true] at h
              obtain ⟨p, rest', rfl, hr, hp⟩ := ih d false n t (by simp) h
              exact ⟨41 :: p, rest', by simp [h3], hr, .cls hp⟩
          by_cases h4 : c = 47 ∧ d = 0
          · simp only [h4, if_false, and_self, if_true, Nat.reduceEqDiff] at h
            simp only [Option.some.injEq, Except.ok.injEq] at h
            subst h
            obtain ⟨rfl, rfl⟩ := h4
            exact ⟨[], t, rfl, rfl, .nil⟩
          · simp only [h1, h2, h3, h4, if_false, Bool.false_eq_true] at h
            obtain ⟨p, rest', rfl, hr, hp⟩ := ih d false n t (by simp) h
            refine ⟨c :: p, rest', by simp, hr, ?_⟩
            by_cases h5 : c = 47
            · subst h5
              exact .slash rfl (by omega) hp
            · exact .ch hch (by simp [h1, h2, h3, h5]) hp

theorem escape_len {q : List Nat} (h : RegexpEscape q) : 0 < q.length := by
  cases h <;> simp

/-- One escape is read over. -/
theorem regexpLoop_esc {q : List Nat} (h : RegexpEscape q) (fuel : Nat) (cp : List Nat)
    (rng : Bool) (n : Nat) (s : List Nat) :
    regexpLoop (fuel + 1) cp rng n (92 :: (q ++ s)) = regexpLoop fuel cp rng n s := by
  simp only [regexpLoop]
  rw [if_neg (by decide), if_neg (by decide), if_pos trivial]
  cases h with
  | one h1 h2 =>
    rename_i c
    have h0d : c ≠ 0x0d := fun hh => h1 (by simp [LineTerm, hh])
    have hlt : isLT c = false := by
      cases hh : isLT c with
      | false => rfl
      | true => exact absurd ((isLT_iff c).1 hh) h1
    have h2' : ¬ c = 117 := h2
    simp [onRune, hlt, h2', rd_cons h0d]
  | u4 h1 h2 =>
    obtain ⟨h3, -⟩ := (hexDigits_iff _ _).1 h1
    simp [readUnicode_u4 h2 h3]
  | brace h1 h2 h3 =>
    obtain ⟨h4, rfl⟩ := (hexDigits_iff _ _).1 h1
    have := readUnicode_brace (rest := s) h2 h4 h3
    simp [this]

theorem regexpLoop_ch {c : Nat} (h : RegexpChar c) (fuel : Nat) (cp cp' : List Nat)
    (rng rng' : Bool) (n : Nat) (s : List Nat) (hs : regexpStep c cp rng n = .ok (some (cp', rng'))) :
    regexpLoop (fuel + 1) cp rng n (c :: s) =
      regexpLoop fuel cp' rng' (if rng' then n + 1 else n) s := by
  have hlt : ¬ isLT c = true := fun hh => h.1 ((isLT_iff c).1 hh)
  have h2 : ¬ c = 92 := h.2.1
  have h3 : ¬ c = RE := h.2.2
  simp only [regexpLoop, h2, h3, if_false, hs]
  rw [if_neg hlt]

theorem class_complete {q : List Nat} (h : RegexpClass q) (d : Nat) (s : List Nat) (r : List Nat)
    (hs : ∀ fuel n, s.length < fuel →
      regexpLoop fuel (stack d false) false n s = some (.ok r)) :
    ∀ fuel n, (q ++ 93 :: s).length < fuel → 0 < n →
      regexpLoop fuel (stack d true) true n (q ++ 93 :: s) = some (.ok r) := by
  induction h with
  | nil =>
    intro fuel n hf hn
    cases fuel with
    | zero => omega
    | succ fuel =>
      simp only [List.nil_append, List.length_cons] at hf
      rw [List.nil_append, regexpLoop_ch ⟨by simp [LineTerm], by decide, by decide⟩ fuel _ _ _ _ _ _ (step_in 93 d n hn)]
      exact hs _ _ (by omega)
  | ch hc h93 _ ih =>
    rename_i c _ _
    intro fuel n hf hn
    cases fuel with
    | zero => omega
    | succ fuel =>
      simp only [List.cons_append, List.length_cons] at hf
      have hst := step_in c d n hn
      have h93' : ¬ c = 93 := h93
      rw [if_neg h93'] at hst
      rw [List.cons_append, regexpLoop_ch hc fuel _ _ _ _ _ _ hst]
      exact ih _ _ (by omega) (by simp)
  | esc hq _ ih =>
    intro fuel n hf hn
    cases fuel with
    | zero => omega
    | succ fuel =>
      simp only [List.cons_append, List.length_cons, List.length_append] at hf
      show regexpLoop (fuel + 1) _ _ _ (92 :: (_ ++ _ ++ _)) = _
      rw [List.append_assoc, regexpLoop_esc hq]
      exact ih _ _ (by simp; omega) hn

theorem body_complete {d : Nat} {p : List Nat} {g : Bool} (h : RegexpBody g d p) (rest : List Nat) :
    ∀ fuel n, (p ++ 47 :: rest).length < fuel →
      regexpLoop fuel (stack d false) false n (p ++ 47 :: rest) = some (.ok (47 :: rest)) := by
  induction h with
  | nil =>
    intro fuel n hf
    cases fuel with
    | zero => omega
    | succ fuel =>
      have := step_out 47 0 n
      simp only [List.nil_append, regexpLoop, this]
      rw [if_neg (by decide), if_neg (by decide), if_neg (by decide)]
      rfl
  | ch hc hx _ ih =>
    rename_i d c s _
    intro fuel n hf
    cases fuel with
    | zero => omega
    | succ fuel =>
      simp only [List.cons_append, List.length_cons] at hf
      have hst := step_out c d n
      have hx' : ¬ c = 40 ∧ ¬ c = 41 ∧ ¬ c = 91 ∧ ¬ c = 47 := by simpa using hx
      rw [if_neg hx'.1, if_neg hx'.2.2.1, if_neg hx'.2.1, if_neg (fun hh => hx'.2.2.2 hh.1)] at hst
      rw [List.cons_append, regexpLoop_ch hc fuel _ _ _ _ _ _ hst]
      exact ih _ _ (by omega)
  | slash hg hd _ ih =>
    rename_i d s _
    intro fuel n hf
    cases fuel with
    | zero => omega
    | succ fuel =>
      simp only [List.cons_append, List.length_cons] at hf
      have hst := step_out 47 d n
      rw [if_neg (by decide), if_neg (by decide), if_neg (by decide),
        if_neg (fun hh => by omega)] at hst
      rw [List.cons_append]
      show regexpLoop (fuel + 1) _ _ _ (47 :: _) = _
      rw [regexpLoop_ch ⟨by simp [LineTerm], by decide, by decide⟩ fuel _ _ _ _ _ _ hst]
      exact ih _ _ (by omega)
  | opn _ ih =>
    rename_i d s _
    intro fuel n hf
    cases fuel with
    | zero => omega
    | succ fuel =>
      simp only [List.cons_append, List.length_cons] at hf
      have hst := step_out 40 d n
      rw [if_pos rfl] at hst
      rw [List.cons_append]
      show regexpLoop (fuel + 1) _ _ _ (40 :: _) = _
      rw [regexpLoop_ch ⟨by simp [LineTerm], by decide, by decide⟩ fuel _ _ _ _ _ _ hst]
      exact ih _ _ (by omega)
  | cls _ ih =>
    rename_i d s _
    intro fuel n hf
    cases fuel with
    | zero => omega
    | succ fuel =>
      simp only [List.cons_append, List.length_cons] at hf
      have hst := step_out 41 (d + 1) n
      rw [if_neg (by decide), if_neg (by decide), if_pos rfl] at hst
      rw [List.cons_append]
      show regexpLoop (fuel + 1) _ _ _ (41 :: _) = _
      rw [regexpLoop_ch ⟨by simp [LineTerm], by decide, by decide⟩ fuel _ _ _ _ _ _ hst]
      exact ih _ _ (by omega)
  | esc hq _ ih =>
    intro fuel n hf
    cases fuel with
    | zero => omega
    | succ fuel =>
      simp only [List.cons_append, List.length_cons, List.length_append] at hf
      show regexpLoop (fuel + 1) _ _ _ (92 :: (_ ++ _ ++ _)) = _
      rw [List.append_assoc, regexpLoop_esc hq]
      exact ih _ _ (by simp; omega)
  | «class» hq _ ih =>
    rename_i d q s _ 
    intro fuel n hf
    cases fuel with
    | zero => omega
    | succ fuel =>
      simp only [List.cons_append, List.length_cons, List.length_append] at hf
      have hst := step_out 91 d n
      rw [if_neg (by decide), if_pos rfl] at hst
      show regexpLoop (fuel + 1) _ _ _ (91 :: (q ++ 93 :: s ++ 47 :: rest)) = _
      rw [regexpLoop_ch ⟨by simp [LineTerm], by decide, by decide⟩ fuel _ _ _ _ _ _ hst,
        List.append_assoc]
      exact class_complete hq d _ _ ih _ _ (by simp; omega) (by simp)

/-- **C14** (partial: the language ends the body at the first slash outside a class; the code
reads over a slash inside parentheses, wants parentheses to be balanced, `\u` to be a proper
escape, and no U+FFFD).  The body the scanner finds is exactly the one of the grammar above; with
`RegexpBody false` in place of `RegexpBody true`, and unbalanced parentheses, it would be the
property. -/
theorem regexpBody_iff_partial (s r : List Nat) :
    regexpLoop (s.length + 1) [] false 0 s = some (.ok r) ↔
      ∃ p rest, s = p ++ r ∧ r = '/'.toNat :: rest ∧ RegexpBody true 0 p := by
  constructor
  · intro h
    exact regexpLoop_sound _ 0 false 0 s r (by simp) h
  · rintro ⟨p, rest, rfl, rfl, h⟩
    exact body_complete h rest _ 0 (Nat.lt_succ_self _)


/-- The inside of a character class in the language. -/
inductive EsClass : List Nat → Prop
  | nil : EsClass []
  | ch {c s} : ¬ LineTerm c → c ≠ '\\'.toNat → c ≠ ']'.toNat → EsClass s → EsClass (c :: s)
  | esc {c s} : ¬ LineTerm c → EsClass s → EsClass ('\\'.toNat :: c :: s)

/-- The body of a regular-expression literal in the language (ECMA-262 12.9.5): no slash outside
a class that is not escaped. -/
inductive EsBody : List Nat → Prop
  | nil : EsBody []
  | ch {c s} : ¬ LineTerm c → c ≠ '\\'.toNat → c ≠ '/'.toNat → c ≠ '['.toNat → EsBody s →
      EsBody (c :: s)
  | esc {c s} : ¬ LineTerm c → EsBody s → EsBody ('\\'.toNat :: c :: s)
  | class {q s} : EsClass q → EsBody s → EsBody ('['.toNat :: q ++ ']'.toNat :: s)

theorem esClass_append {a b : List Nat} (ha : EsClass a) (hb : EsClass b) : EsClass (a ++ b) := by
  induction ha with
  | nil => exact hb
  | ch h1 h2 h3 _ ih => exact .ch h1 h2 h3 ih
  | esc h1 _ ih => exact .esc h1 ih

theorem esBody_append {a b : List Nat} (ha : EsBody a) (hb : EsBody b) : EsBody (a ++ b) := by
  induction ha with
  | nil => exact hb
  | ch h1 h2 h3 h4 _ ih => exact .ch h1 h2 h3 h4 ih
  | esc h1 _ ih => exact .esc h1 ih
  | «class» h1 _ ih =>
    have := EsBody.class h1 ih
    rw [List.append_assoc]
    exact this

theorem hex_plain {c : Nat} (h : isHexDigit c = true) :
    ¬ LineTerm c ∧ c ≠ 92 ∧ c ≠ 47 ∧ c ≠ 91 ∧ c ≠ 93 := by
  simp only [isHexDigit, Bool.or_eq_true, Bool.and_eq_true, decide_eq_true_eq] at h
  simp only [LineTerm]
  omega

theorem escape_es {q : List Nat} (h : RegexpEscape q) :
    ∃ c t, q = c :: t ∧ ¬ LineTerm c ∧
      ∀ d ∈ t, ¬ LineTerm d ∧ d ≠ 92 ∧ d ≠ 47 ∧ d ≠ 91 ∧ d ≠ 93 := by
  cases h with
  | one h1 h2 => exact ⟨_, [], rfl, h1, by simp⟩
  | u4 h1 h2 =>
    exact ⟨_, _, rfl, by simp [LineTerm], fun d hd => hex_plain (((hexDigits_iff _ _).1 h1).1 d hd)⟩
  | brace h1 h2 h3 =>
    rename_i cs vs
    refine ⟨117, 123 :: (cs ++ [125]), rfl, by simp [LineTerm], fun d hd => ?_⟩
    simp only [List.mem_cons, List.mem_append, List.not_mem_nil, or_false] at hd
    rcases hd with rfl | hd | rfl
    · simp [LineTerm]
    · exact hex_plain (((hexDigits_iff _ _).1 h1).1 d hd)
    · simp [LineTerm]

theorem regexpClass_es {q : List Nat} (h : RegexpClass q) : EsClass q := by
  induction h with
  | nil => exact .nil
  | ch hc h93 _ ih => exact .ch hc.1 hc.2.1 h93 ih
  | esc hq _ ih =>
    obtain ⟨c, t, rfl, h1, h2⟩ := escape_es hq
    refine .esc h1 ?_
    clear hq
    induction t with
    | nil => exact ih
    | cons d t iht =>
      have := h2 d (by simp)
      exact .ch this.1 this.2.1 this.2.2.2.2 (iht fun x hx => h2 x (by simp [hx]))

theorem regexpBody_es {d : Nat} {p : List Nat} (h : RegexpBody false d p) : EsBody p := by
  induction h with
  | nil => exact .nil
  | ch hc hx _ ih =>
    simp only [List.mem_cons, List.not_mem_nil, or_false, not_or] at hx
    exact .ch hc.1 hc.2.1 hx.2.2.2 hx.2.2.1 ih
  | slash hg => cases hg
  | opn _ ih => exact .ch (by simp [LineTerm]) (by decide) (by decide) (by decide) ih
  | cls _ ih => exact .ch (by simp [LineTerm]) (by decide) (by decide) (by decide) ih
  | esc hq _ ih =>
    obtain ⟨c, t, rfl, h1, h2⟩ := escape_es hq
    refine .esc h1 ?_
    clear hq
    induction t with
    | nil => exact ih
    | cons d t iht =>
      have := h2 d (by simp)
      exact .ch this.1 this.2.1 this.2.2.1 this.2.2.2.1 (iht fun x hx => h2 x (by simp [hx]))
  | «class» hq _ ih => exact .class (regexpClass_es hq) ih

theorem esClass_unique {q q' r r' : List Nat} (h : EsClass q) (h' : EsClass q')
    (e : q ++ 93 :: r = q' ++ 93 :: r') : q = q' ∧ r = r' := by
  induction h generalizing q' with
  | nil =>
    cases h' with
    | nil => simpa using e
    | ch h1 h2 h3 h4 =>
      simp only [List.nil_append, List.cons_append, List.cons.injEq] at e
      exact absurd e.1.symm h3
    | esc h1 h2 => simp at e
  | ch h1 h2 h3 _ ih =>
    cases h' with
    | nil =>
      simp only [List.nil_append, List.cons_append, List.cons.injEq] at e
      exact absurd e.1 h3
    | ch h1' h2' h3' h4' =>
      simp only [List.cons_append, List.cons.injEq] at e
      obtain ⟨rfl, e⟩ := e
      have := ih h4' e
      exact ⟨by rw [this.1], this.2⟩
    | esc h1' h2' =>
      simp only [List.cons_append, List.cons.injEq] at e
      exact absurd e.1 h2
  | esc h1 _ ih =>
    cases h' with
    | nil => simp at e
    | ch h1' h2' h3' h4' =>
      simp only [List.cons_append, List.cons.injEq] at e
      exact absurd e.1.symm h2'
    | esc h1' h2' =>
      simp only [List.cons_append, List.cons.injEq, true_and] at e
      obtain ⟨rfl, e⟩ := e
      have := ih h2' e
      exact ⟨by rw [this.1], this.2⟩

/-- The language's body is unique: it ends at the first slash. -/
theorem esBody_unique {p p' r r' : List Nat} (h : EsBody p) (h' : EsBody p')
    (e : p ++ 47 :: r = p' ++ 47 :: r') : p = p' := by
  induction h generalizing p' with
  | nil =>
    cases h' with
    | nil => rfl
    | ch h1 h2 h3 h4 h5 =>
      simp only [List.nil_append, List.cons_append, List.cons.injEq] at e
      exact absurd e.1.symm h3
    | esc h1 h2 => simp at e
    | «class» => simp at e
  | ch h1 h2 h3 h4 _ ih =>
    cases h' with
    | nil =>
      simp only [List.nil_append, List.cons_append, List.cons.injEq] at e
      exact absurd e.1 h3
    | ch h1' h2' h3' h4' h5' =>
      simp only [List.cons_append, List.cons.injEq] at e
      obtain ⟨rfl, e⟩ := e
      rw [ih h5' e]
    | esc h1' h2' =>
      simp only [List.cons_append, List.cons.injEq] at e
      exact absurd e.1 h2
    | «class» h1' h2' =>
      simp only [List.cons_append, List.cons.injEq] at e
      exact absurd e.1 h4
  | esc h1 _ ih =>
    cases h' with
    | nil => simp at e
    | ch h1' h2' h3' h4' h5' =>
      simp only [List.cons_append, List.cons.injEq] at e
      exact absurd e.1.symm h2'
    | esc h1' h2' =>
      simp only [List.cons_append, List.cons.injEq, true_and] at e
      obtain ⟨rfl, e⟩ := e
      rw [ih h2' e]
    | «class» => simp at e
  | «class» hq _ ih =>
    cases h' with
    | nil => simp at e
    | ch h1' h2' h3' h4' h5' =>
      simp only [List.cons_append, List.cons.injEq] at e
      exact absurd e.1.symm h4'
    | esc h1' h2' => simp at e
    | «class» h1' h2' =>
      simp only [List.cons_append, List.cons.injEq, true_and, List.append_assoc] at e
      obtain ⟨rfl, e'⟩ := esClass_unique hq h1' e
      rw [ih h2' e']

/-- **C14** (partial, see `regexpBody_iff_partial`).  Whenever the text has no slash inside
parentheses, the scanner finds the language's body: the one up to the first slash that is neither
escaped nor inside a class. -/
theorem regexpBody_first_slash_partial (p rest : List Nat) (h : RegexpBody false 0 p) :
    regexpLoop ((p ++ '/'.toNat :: rest).length + 1) [] false 0 (p ++ '/'.toNat :: rest) =
        some (.ok ('/'.toNat :: rest)) ∧
      EsBody p ∧
      ∀ p' rest', EsBody p' → p ++ '/'.toNat :: rest = p' ++ '/'.toNat :: rest' → p' = p :=
  ⟨body_complete h rest _ 0 (Nat.lt_succ_self _), regexpBody_es h,
    fun _ _ h' e => (esBody_unique (regexpBody_es h) h' e).symm⟩

theorem regexpLoop_terminates (fuel : Nat) (cp : List Nat) (rng : Bool) (n : Nat) (s : List Nat)
    (h : s.length < fuel) : ∃ r, regexpLoop fuel cp rng n s = some r := by
  induction fuel generalizing cp rng n s with
  | zero => omega
  | succ fuel ih =>
    cases s with
    | nil => exact ⟨_, rfl⟩
    | cons c t =>
      simp only [List.length_cons] at h
      simp only [regexpLoop]
      split
      · exact ⟨_, rfl⟩
      split
      · exact ⟨_, rfl⟩
      split
      · split
        · split
          · exact ⟨_, rfl⟩
          · rename_i v rest hv
            have := readUnicode_length (fun _ => true) false t.tail
            rw [hv] at this
            simp only [List.length_tail] at this
            exact ih _ _ _ _ (by omega)
        · by_cases hl : onRune isLT t.head? = true
          · rw [if_pos hl]; exact ih _ _ _ _ (by omega)
          · rw [if_neg hl]
            have := rd_length t
            exact ih _ _ _ _ (by omega)
      · split
        · exact ⟨_, rfl⟩
        · exact ⟨_, rfl⟩
        · exact ih _ _ _ _ (by omega)

/-- **C14.** The scanner ends on every text, and one without an end of the body (a slash) is an
error. -/
theorem readRegexp_terminates (T : IdTables) (F : RegexpCfg) (s : List Nat) :
    (∃ r, readRegexp T F s = some r) ∧
    ('/'.toNat ∉ s → ∃ e, readRegexp T F s = some (.error e)) := by
  obtain ⟨x, hx⟩ := regexpLoop_terminates (s.length + 1) [] false 0 s (Nat.lt_succ_self _)
  constructor
  · unfold readRegexp
    rw [hx]
    cases x with
    | error e => exact ⟨_, rfl⟩
    | ok r =>
      simp only
      have : ∃ y, regexpFlags T F r.tail = some y := by
        unfold regexpFlags
        split
        · obtain ⟨z, hz⟩ := readIdPart_terminates (T := T) (jsx := false) (r.tail.length + 1) r.tail
            (Nat.lt_succ_self _)
          rw [hz]
          split
          · rename_i heq; cases heq
          · exact ⟨_, rfl⟩
          · split <;> exact ⟨_, rfl⟩
        · exact ⟨_, rfl⟩
      obtain ⟨y, hy⟩ := this
      rw [hy]
      split
      · rename_i heq; cases heq
      · exact ⟨_, rfl⟩
      · exact ⟨_, rfl⟩
  · intro h
    unfold readRegexp
    cases x with
    | error e => rw [hx]; exact ⟨_, rfl⟩
    | ok r =>
      obtain ⟨p, rest, rfl, rfl, -⟩ := (regexpBody_iff_partial _ _).1 hx
      exact absurd (by simp) h

/-- A legal flag under the enabled features. -/
def LegalFlag (F : RegexpCfg) (f : Nat) : Prop :=
  f = 'g'.toNat ∨ f = 'i'.toNat ∨ f = 'm'.toNat ∨ (f = 'd'.toNat ∧ F.hasIndices = true) ∨
  (f = 'u'.toNat ∧ F.unicode = true) ∨ (f = 'y'.toNat ∧ F.sticky = true) ∨
  (f = 's'.toNat ∧ F.dotAll = true)

theorem isLegalFlag_iff (F : RegexpCfg) (f : Nat) : isLegalFlag F f = true ↔ LegalFlag F f := by
  show _ ↔ f = 103 ∨ f = 105 ∨ f = 109 ∨ (f = 100 ∧ _) ∨ (f = 117 ∧ _) ∨ (f = 121 ∧ _) ∨
    (f = 115 ∧ _)
  unfold isLegalFlag
  by_cases h1 : f = 103 ∨ f = 105 ∨ f = 109
  · rw [if_pos h1]; grind
  rw [if_neg h1]
  by_cases h2 : f = 100
  · subst h2; simp
  rw [if_neg h2]
  by_cases h3 : f = 117
  · subst h3; simp
  rw [if_neg h3]
  by_cases h4 : f = 121
  · subst h4; simp
  rw [if_neg h4]
  by_cases h5 : f = 115
  · subst h5; simp
  rw [if_neg h5]
  grind

/-- **C14** (partial: each flag at most once and no escapes are missing).  The flags are the
maximal run of identifier characters after the body; with the check enabled the literal is
rejected unless all are legal. -/
theorem regexpFlags_iff_partial (T : IdTables) (F : RegexpCfg) (s fs rest : List Nat)
    (h92 : s.head? ≠ some '\\'.toNat) :
    regexpFlags T F s = some (.ok (fs, rest)) ↔
      (∃ src e, s = src ++ rest ∧ Part T false src fs e) ∧
      (∀ c, rest.head? = some c → isIdStart T c = false ∧ isIdPart T c = false) ∧
      (F.check = true → ∀ f ∈ fs, LegalFlag F f) := by
  have hnp : ∀ rest : List Nat, NoPart T false rest ↔
      ∀ c, rest.head? = some c → isIdStart T c = false ∧ isIdPart T c = false := by
    intro rest
    simp [NoPart, part]
  unfold regexpFlags
  rw [← hnp]
  have hchk : ∀ fs : List Nat, (F.check && !fs.all (isLegalFlag F)) = false ↔
      (F.check = true → ∀ f ∈ fs, LegalFlag F f) := by
    intro fs
    cases F.check with
    | false => simp
    | true =>
      simp only [Bool.true_and, Bool.not_eq_false', List.all_eq_true, isLegalFlag_iff, true_implies]
  split
  · constructor
    · intro h
      split at h
      · cases h
      · cases h
      · rename_i fs' e rest' hp
        split at h
        · cases h
        · rename_i hc
          simp only [Option.some.injEq, Except.ok.injEq, Prod.mk.injEq] at h
          obtain ⟨rfl, rfl⟩ := h
          obtain ⟨src, h1, h2, h3⟩ := readIdPart_sound _ _ _ _ _ hp
          exact ⟨⟨src, e, h1, h2⟩, h3, (hchk _).1 (by simpa using hc)⟩
    · rintro ⟨⟨src, e, rfl, h2⟩, h3, h4⟩
      rw [part_len h2 rest h3 _ (Nat.lt_succ_self _)]
      simp [(hchk _).2 h4]
  · rename_i ha
    have ha' : NoPart T false s := by
      intro c hc
      cases s with
      | nil => cases hc
      | cons d t =>
        simp only [List.head?_cons, Option.some.injEq] at hc
        subst hc
        have : d ≠ 92 := fun hh => h92 (by simp [hh])
        simpa [aheadIsIdPart, onRune, part, this] using ha
    constructor
    · intro h
      simp only [Option.some.injEq, Except.ok.injEq, Prod.mk.injEq] at h
      obtain ⟨rfl, rfl⟩ := h
      exact ⟨⟨[], false, rfl, .nil⟩, ha', by simp⟩
    · rintro ⟨⟨src, e, rfl, h2⟩, h3, h4⟩
      have hc := part_len h2 rest h3 _ (Nat.lt_succ_self _)
      have hn := part_len (T := T) (jsx := false) .nil (src ++ rest) ha' _ (Nat.lt_succ_self _)
      rw [List.nil_append] at hn
      rw [hc] at hn
      simp only [Option.some.injEq, Except.ok.injEq, Prod.mk.injEq] at hn
      obtain ⟨rfl, -, hr⟩ := hn
      rw [← hr]

/-- **C14.** The literal as a whole: body, closing slash, flags. -/
theorem readRegexp_eq (T : IdTables) (F : RegexpCfg) (p : List Nat) (t fs rest : List Nat)
    (h : RegexpBody true 0 p) (hf : regexpFlags T F t = some (.ok (fs, rest))) :
    readRegexp T F (p ++ '/'.toNat :: t) = some (.ok (p, fs, rest)) := by
  unfold readRegexp
  have hb := body_complete h t ((p ++ 47 :: t).length + 1) 0 (Nat.lt_succ_self _)
  change regexpLoop ((p ++ '/'.toNat :: t).length + 1) [] false 0 (p ++ '/'.toNat :: t) = _ at hb
  rw [hb]
  simp [hf]

/-- **C14 is violated**: in `/(/)/` the slash inside the parentheses does not end the literal;
the language's body is `(`. -/
theorem slash_in_group_violated :
    regexpLoop 5 [] false 0 (str "(/)/") = some (.ok (str "/")) ∧ EsBody (str "(") :=
  ⟨rfl, .ch (by decide) (by decide) (by decide) (by decide) .nil⟩

/-- **C14 is violated**: `/\u/` is rejected. -/
theorem lone_u_violated :
    regexpLoop 4 [] false 0 (str "\\u/") = some (.error .badEscapeSeq) ∧ EsBody (str "\\u") :=
  ⟨rfl, .esc (by decide) .nil⟩

/-- **C14 is violated**: flags may repeat. -/
theorem duplicate_flag_violated (T : IdTables) :
    regexpFlags T ⟨true, true, true, true, true⟩ (str "gg") = some (.ok (str "gg", [])) := by
  rw [regexpFlags_iff_partial _ _ _ _ _ (by decide)]
  refine ⟨⟨str "gg", false, by simp, ?_⟩, by simp, ?_⟩
  · have h := Part.ch (T := T) (jsx := false) (c := 103) (by simp [part, isIdStart]) (by decide)
      (.ch (c := 103) (by simp [part, isIdStart]) (by decide) .nil)
    simpa [appendRune, str] using h
  · intro _ f hf
    have : f = 103 := by simpa [str] using hf
    exact .inl this

example : RegexpBody false 0 (str "a[/]\\/(b)") :=
  .ch ⟨by decide, by decide, by decide⟩ (by decide)
    (.class (q := [47]) (.ch ⟨by decide, by decide, by decide⟩ (by decide) .nil)
      (.esc (q := [47]) (.one (by decide) (by decide))
        (.opn (.ch ⟨by decide, by decide, by decide⟩ (by decide) (.cls .nil)))))

end Mole.Lexer
