import Verif.Parser.ExprGroup
/-! Helper lemmas for C17-C19: the loops end, and when they report an error. -/
namespace Mole.Parser
open Spec

/-- Tokens read or left: the loops never go back. -/
theorem ret_length {C : ExprCfg} {lhs : Tree} {min : Nat} {s : List Tok} {t : Tree}
    {rest : List Tok} {ps} (R : Ret C lhs min s t rest ps) : rest.length ≤ s.length := by
  rw [R.src]; simp

theorem loops_total (C : ExprCfg) (n : Nat) :
    (∀ f lhs min lg nl s, s.length ≤ n → 2 * s.length + 1 ≤ f →
      ∃ x, binLoop C f lhs min lg nl s = some x) ∧
    (∀ f pcd rhs lg nl s, s.length ≤ n → 2 * s.length + 2 ≤ f →
      ∃ x, innerLoop C f pcd rhs lg nl s = some x) := by
  induction n using Nat.strongRecOn with
  | ind n ih =>
  have hB : ∀ f lhs min lg nl s, s.length ≤ n → 2 * s.length + 1 ≤ f →
      ∃ x, binLoop C f lhs min lg nl s = some x := by
    intro f lhs min lg nl s hn hf
    cases f with
    | zero => omega
    | succ f =>
      rcases stop_or C min s with hs | ⟨op, t, rfl, he, hm⟩
      · exact ⟨_, binLoop_stop hs _ _ _ _⟩
      · rw [binLoop_step he hm]
        unfold binStep
        split
        · exact ⟨_, rfl⟩
        split
        · exact ⟨_, rfl⟩
        split
        · rename_i o s2
          simp only [List.length_cons] at hn hf
          obtain ⟨x, hx⟩ := (ih (n - 1) (by omega)).2 f op.pcd (.leaf o)
            (lg || op == .and || op == .or) (nl || op == .nullish) s2 (by omega) (by omega)
          rw [hx]
          cases x with
          | error e => exact ⟨_, rfl⟩
          | ok r =>
            obtain ⟨rhs, s3⟩ := r
            simp only
            split
            · exact ⟨_, rfl⟩
            split
            · exact ⟨_, rfl⟩
            · have hl : s3.length ≤ s2.length := by
                rcases innerLoop_cases (C := C) op.pcd s2 with hnt | ⟨q, hq⟩
                · have := innerLoop_none hnt _ _ _ _ _ hx
                  simp only [Except.ok.injEq, Prod.mk.injEq] at this
                  rw [this.2]
                  exact Nat.le_refl _
                · obtain ⟨f', rfl, hb⟩ := innerLoop_tight hq _ _ _ _ _ hx
                  obtain ⟨ps, R⟩ := binLoop_ret C _ _ _ _ _ _ _ _ hb
                  exact ret_length R
              exact (ih (n - 1) (by omega)).1 f _ _ _ _ s3 (by omega) (by omega)
        · exact ⟨_, rfl⟩
  refine ⟨hB, ?_⟩
  intro f pcd rhs lg nl s hn hf
  cases f with
  | zero => omega
  | succ f =>
    rw [innerLoop]
    cases hb : isBin C s with
    | none => exact ⟨_, rfl⟩
    | some op =>
      simp only
      split
      · obtain ⟨x, hx⟩ := hB f rhs op.pcd lg nl s hn (by omega)
        rw [hx]
        cases x with
        | error e => exact ⟨_, rfl⟩
        | ok r =>
          obtain ⟨rhs', s'⟩ := r
          simp only
          obtain ⟨ps, R⟩ := binLoop_ret C _ _ _ _ _ _ _ _ hx
          cases ps with
          | cons p ps =>
            obtain ⟨p1, p2⟩ := p
            have hl : s'.length + 2 ≤ s.length := by
              rw [R.src]
              simp [chain]
            exact (ih (n - 1) (by omega)).2 f _ _ _ _ s' (by omega) (by omega)
          | nil =>
            have hs : s = s' := R.src
            subst hs
            -- nothing read: the operator is `>` where it is excluded
            have hg : op = .gt ∧ C.notGT = true := by
              rcases (stop_iff (min := op.pcd) hb).2 R.stop with h | h
              · omega
              · exact h
            obtain ⟨rfl, hg⟩ := hg
            cases f with
            | zero => omega
            | succ f =>
              refine ⟨.ok (rhs', s), ?_⟩
              rw [innerLoop, hb]
              simp only [gt_iff_lt, Nat.lt_irrefl, true_and, false_or]
              rw [if_neg (by decide)]
      · exact ⟨_, rfl⟩

/-- The checks along a chain, from left to right: flags as the parser keeps them, `u` tells
whether the operand to the left is a unary expression. -/
def chk (lg nl u : Bool) : List (BinOp × Operand) → Bool
  | [] => true
  | (op, o) :: ps =>
    !((lg && op == .nullish) || (nl && (op == .and || op == .or))) && !(u && op == .pow) &&
      chk (lg || op == .and || op == .or) (nl || op == .nullish) o.unary ps

/-- The flags after a chain. -/
def flags (lg nl : Bool) : List (BinOp × Operand) → Bool × Bool
  | [] => (lg, nl)
  | (op, _) :: ps => flags (lg || op == .and || op == .or) (nl || op == .nullish) ps

/-- Whether the last operand of a chain is unary. -/
def lastUnary (u : Bool) : List (BinOp × Operand) → Bool
  | [] => u
  | (_, o) :: ps => lastUnary o.unary ps

theorem chk_append (lg nl u : Bool) (A B : List (BinOp × Operand)) :
    chk lg nl u (A ++ B) =
      (chk lg nl u A && chk (flags lg nl A).1 (flags lg nl A).2 (lastUnary u A) B) := by
  induction A generalizing lg nl u with
  | nil => simp [chk, flags, lastUnary]
  | cons p A ih =>
    obtain ⟨op, o⟩ := p
    simp only [List.cons_append, chk, flags, lastUnary, ih, Bool.and_assoc]

/-- The unary flag matters for `**` only. -/
theorem chk_unary (lg nl u u' : Bool) (B : List (BinOp × Operand))
    (h : ∀ p, B.head? = some p → p.1 ≠ .pow) : chk lg nl u B = chk lg nl u' B := by
  cases B with
  | nil => rfl
  | cons p B =>
    obtain ⟨op, o⟩ := p
    have : (op == .pow) = false := by
      simpa using h (op, o) rfl
    simp [chk, this]

/-- Operators tighter than one that has set its flag change no flag, or the chain is wrong. -/
theorem flags_stable (op : BinOp) (q : Nat) (hq : op.pcd < q ∨ q = 16) (lg nl u : Bool)
    (hlg : op = .and ∨ op = .or → lg = true) (hnl : op = .nullish → nl = true)
    (A : List (BinOp × Operand)) (hA : ∀ p ∈ A, q ≤ p.1.pcd) (hc : chk lg nl u A = true) :
    flags lg nl A = (lg, nl) := by
  induction A generalizing u with
  | nil => rfl
  | cons p A ih =>
    obtain ⟨o, x⟩ := p
    have h1 := hA (o, x) (by simp)
    simp only at h1
    simp only [chk, Bool.and_eq_true, Bool.not_eq_true', Bool.or_eq_false_iff,
      Bool.and_eq_false_iff] at hc
    have hp := pcd_le op
    have e1 : (lg || o == .and || o == .or) = lg := by
      by_cases ho : o = .or
      · subst ho
        have : BinOp.pcd .or = 6 := rfl
        omega
      by_cases ha : o = .and
      · subst ha
        have hx : BinOp.pcd .and = 7 := rfl
        have h6 : op.pcd = 6 := by omega
        have : op = .nullish ∨ op = .or := by
          revert h6; cases op <;> decide
        rcases this with rfl | rfl
        · have := hnl rfl
          subst this
          simp at hc
        · simp [hlg (.inr rfl)]
      · have h1 : (o == .or) = false := by simpa using ho
        have h2 : (o == .and) = false := by simpa using ha
        simp [h1, h2]
    have e2 : (nl || o == .nullish) = nl := by
      by_cases ho : o = .nullish
      · subst ho
        have : BinOp.pcd .nullish = 6 := rfl
        omega
      · have h1 : (o == .nullish) = false := by simpa using ho
        simp [h1]
    rw [flags, e1, e2]
    have hc2 := hc.2
    rw [e1, e2] at hc2
    exact ih x.unary (fun p hp => hA p (by simp [hp])) hc2

/-- The part of a chain a loop with bound `min` reads. -/
def upTo (min : Nat) (ps : List (BinOp × Operand)) : List (BinOp × Operand) :=
  ps.takeWhile fun p => decide (min ≤ p.1.pcd)

def after (min : Nat) (ps : List (BinOp × Operand)) : List (BinOp × Operand) :=
  ps.dropWhile fun p => decide (min ≤ p.1.pcd)

theorem upTo_after (min : Nat) (ps) : upTo min ps ++ after min ps = ps :=
  List.takeWhile_append_dropWhile

theorem after_head (min : Nat) (ps : List (BinOp × Operand)) (p) (h : (after min ps).head? = some p) :
    p.1.pcd < min := by
  have := List.head?_dropWhile_not (fun p : BinOp × Operand => decide (min ≤ p.1.pcd)) ps
  rw [show (List.dropWhile (fun p : BinOp × Operand => decide (min ≤ p.1.pcd)) ps).head? = some p from h] at this
  simp at this
  omega

theorem upTo_all (min : Nat) (ps : List (BinOp × Operand)) : ∀ p ∈ upTo min ps, min ≤ p.1.pcd := by
  induction ps with
  | nil => intro p hp; cases hp
  | cons a ps ih =>
    intro p hp
    simp only [upTo, List.takeWhile_cons] at hp ih
    split at hp
    · rename_i ha
      simp only [List.mem_cons] at hp
      rcases hp with rfl | hp
      · simpa using ha
      · exact ih p hp
    · cases hp

theorem upTo_upTo {min q : Nat} (h : min ≤ q) (ps : List (BinOp × Operand)) :
    upTo min ps = upTo q ps ++ upTo min (after q ps) ∧ after min ps = after min (after q ps) := by
  induction ps with
  | nil => exact ⟨rfl, rfl⟩
  | cons p ps ih =>
    simp only [upTo, after, List.takeWhile_cons, List.dropWhile_cons] at ih ⊢
    by_cases hq : q ≤ p.1.pcd
    · have hm : min ≤ p.1.pcd := by omega
      simp only [hq, hm, decide_true, if_true]
      exact ⟨by rw [ih.1]; rfl, ih.2⟩
    · simp [hq, List.takeWhile_cons, List.dropWhile_cons]

theorem isUnary_bin (op l r) : (Tree.bin op l r).isUnary = false := rfl

/-- What the loop does on a chain that has all its operands. -/
theorem binLoop_chk (C : ExprCfg) (hpow : C.pow = true) (rest : List Tok) (hrest : NoOp C rest)
    (f : Nat) : ∀ (lhs : Tree) (min : Nat) (lg nl : Bool) (ps : List (BinOp × Operand)) (x),
    (∀ p ∈ ps, Enabled C p.1 ∧ p.2.arrow = false) →
    binLoop C f lhs min lg nl (chain ps ++ rest) = some x →
    (if chk lg nl lhs.isUnary (upTo min ps) then
      ∃ t, x = .ok (t, chain (after min ps) ++ rest) else ∃ e, x = .error e) := by
  induction f using Nat.strongRecOn with
  | ind f ih =>
  intro lhs min lg nl ps x hps h
  cases f with
  | zero => simp [binLoop] at h
  | succ f =>
  cases ps with
  | nil =>
    have hs : Stop C min (chain [] ++ rest) := by
      intro op ho
      simp only [chain, List.nil_append] at ho
      rw [nextOp_none.2 hrest] at ho
      cases ho
    rw [binLoop_stop hs] at h
    simp only [Option.some.injEq] at h
    subst h
    simp [upTo, after, chk]
  | cons p ps =>
    obtain ⟨op, o⟩ := p
    have he := (hps (op, o) (by simp)).1
    have ho := (hps (op, o) (by simp)).2
    simp only at he ho
    by_cases hm : min ≤ op.pcd
    · have hup : upTo min ((op, o) :: ps) = (op, o) :: upTo min ps := by
        simp [upTo, hm]
      have haf : after min ((op, o) :: ps) = after min ps := by
        simp [after, hm]
      rw [hup, haf]
      have h' : binStep C f op lhs min lg nl (.operand o :: (chain ps ++ rest)) = some x := by
        rw [← binLoop_step he hm]; exact h
      unfold binStep at h'
      by_cases hmix : (lg = true ∧ op = .nullish) ∨ (nl = true ∧ (op = .and ∨ op = .or))
      · rw [if_pos hmix] at h'
        have : chk lg nl lhs.isUnary ((op, o) :: upTo min ps) = false := by
          have : ((lg && op == .nullish) || (nl && (op == .and || op == .or))) = true := by
            simpa using hmix
          simp [chk, this]
        rw [this]
        simp only [Option.some.injEq] at h'
        exact ⟨_, h'.symm⟩
      · rw [if_neg hmix, if_neg (by simp [hpow])] at h'
        have hmix' : ((lg && op == .nullish) || (nl && (op == .and || op == .or))) = false := by
          cases hc : ((lg && op == .nullish) || (nl && (op == .and || op == .or))) with
          | false => rfl
          | true => exact absurd (by simpa using hc) hmix
        simp only at h'
        have hps' : ∀ p ∈ ps, Enabled C p.1 ∧ p.2.arrow = false := fun p hp => hps p (by simp [hp])
        have hchk : chk lg nl lhs.isUnary ((op, o) :: upTo min ps) =
            (!(lhs.isUnary && op == .pow) &&
              chk (lg || op == .and || op == .or) (nl || op == .nullish) o.unary (upTo min ps)) := by
          rw [chk, hmix']
          simp
        rw [hchk]
        -- common end: the rest of this loop
        have hend : ∀ (rhs : Tree) (B : List (BinOp × Operand)), rhs.isArrow = false →
            (∀ p ∈ B, Enabled C p.1 ∧ p.2.arrow = false) →
            (∀ p, B.head? = some p → p.1 ≠ .pow) →
            (if lhs.isUnary = true ∧ op = .pow then some (.error .unaryBeforePow)
              else if rhs.isArrow = true then some (.error .arrow)
              else binLoop C f (.bin op lhs rhs) min (lg || op == .and || op == .or)
                (nl || op == .nullish) (chain B ++ rest)) = some x →
            (if !(lhs.isUnary && op == .pow) &&
                chk (lg || op == .and || op == .or) (nl || op == .nullish) false (upTo min B) then
              ∃ t, x = .ok (t, chain (after min B) ++ rest) else ∃ e, x = .error e) := by
          intro rhs B har hB hB2 hx
          by_cases hun : lhs.isUnary = true ∧ op = .pow
          · rw [if_pos hun] at hx
            simp only [Option.some.injEq] at hx
            simp only [hun.1, hun.2, beq_self_eq_true, Bool.and_true, Bool.not_true, Bool.false_and,
              Bool.false_eq_true, if_false]
            exact ⟨_, hx.symm⟩
          · rw [if_neg hun, har, if_neg (by simp)] at hx
            have hun' : (lhs.isUnary && op == .pow) = false := by
              cases hc : (lhs.isUnary && op == .pow) with
              | false => rfl
              | true => exact absurd (by simpa using hc) hun
            rw [hun']
            have := ih f (by omega) (.bin op lhs rhs) min _ _ B x hB hx
            exact this
        split at h'
        · cases h'
        · -- the right operand is wrong
          rename_i e hin
          rcases innerLoop_cases (C := C) op.pcd (chain ps ++ rest) with hnt | ⟨q, hq⟩
          · have := innerLoop_none hnt _ _ _ _ _ hin
            cases this
          · obtain ⟨f', rfl, hb⟩ := innerLoop_tight hq _ _ _ _ _ hin
            have hI := ih f' (by omega) (.leaf o) q.pcd _ _ ps _ hps' hb
            have hq' : min ≤ q.pcd := by have := hq.2; omega
            obtain ⟨hu1, hu2⟩ := upTo_upTo hq' ps
            rw [hu1, chk_append]
            change if chk _ _ o.unary _ = true then _ else _ at hI
            by_cases hcI : chk (lg || op == .and || op == .or) (nl || op == .nullish) o.unary (upTo q.pcd ps) = true
            · rw [if_pos hcI] at hI
              obtain ⟨t, ht⟩ := hI
              cases ht
            · have hcI' : chk (lg || op == .and || op == .or) (nl || op == .nullish) o.unary (upTo q.pcd ps) = false := by
                simpa using hcI
              rw [hcI']
              simp only [Bool.false_and, Bool.and_false, Bool.false_eq_true, if_false]
              simp only [Option.some.injEq] at h'
              exact ⟨_, h'.symm⟩
        · rename_i rhs s3 hin
          rcases innerLoop_cases (C := C) op.pcd (chain ps ++ rest) with hnt | ⟨q, hq⟩
          · have := innerLoop_none hnt _ _ _ _ _ hin
            simp only [Except.ok.injEq, Prod.mk.injEq] at this
            obtain ⟨rfl, rfl⟩ := this
            have hnp : ∀ p, ps.head? = some p → p.1 ≠ .pow := by
              intro p hp hpp
              cases ps with
              | nil => cases hp
              | cons p' ps =>
                simp only [List.head?_cons, Option.some.injEq] at hp
                subst hp
                have h1 := nextOp_chain C p' ps rest (hps' p' (by simp)).1
                have h2 := hnt p'.1
                simp only [Tight, h1, true_and, not_or] at h2
                have h3 := pcd_le op
                have h4 := (pcd_16 p'.1).2 hpp
                exact h2.2 ⟨by omega, hpp⟩
            have := hend (.leaf o) ps ho hps' hnp h'
            have hcu := chk_unary (lg || op == .and || op == .or) (nl || op == .nullish) o.unary
              false (upTo min ps) (by
                intro p hp
                cases ps with
                | nil => cases hp
                | cons p' ps =>
                  simp only [upTo, List.takeWhile_cons] at hp
                  split at hp
                  · simp only [List.head?_cons, Option.some.injEq] at hp
                    subst hp
                    exact hnp p' rfl
                  · cases hp)
            rw [hcu]
            exact this
          · obtain ⟨f', rfl, hb⟩ := innerLoop_tight hq _ _ _ _ _ hin
            have hI := ih f' (by omega) (.leaf o) q.pcd _ _ ps _ hps' hb
            have hq' : min ≤ q.pcd := by have := hq.2; omega
            obtain ⟨hu1, hu2⟩ := upTo_upTo hq' ps
            rw [hu1, hu2, chk_append]
            change if chk _ _ o.unary _ = true then _ else _ at hI
            by_cases hcI : chk (lg || op == .and || op == .or) (nl || op == .nullish) o.unary (upTo q.pcd ps) = true
            · rw [if_pos hcI] at hI
              obtain ⟨t, ht⟩ := hI
              simp only [Except.ok.injEq, Prod.mk.injEq] at ht
              obtain ⟨rfl, rfl⟩ := ht
              have hqt := hq.2
              have hfl := flags_stable op q.pcd (by
                  rcases hqt with h1 | ⟨h1, h2⟩
                  · exact .inl h1
                  · exact .inr ((pcd_16 q).2 h2)) _ _ _ (by rintro (rfl | rfl) <;> simp)
                (by rintro rfl; simp) (upTo q.pcd ps) (upTo_all _ _) hcI
              rw [hcI, hfl]
              have hah : ∀ p, (after q.pcd ps).head? = some p → p.1 ≠ .pow := by
                intro p hp hpp
                have h1 := after_head _ _ _ hp
                have h2 := (pcd_16 p.1).2 hpp
                have h3 := pcd_le q
                omega
              have harr : rhs.isArrow = false := by
                obtain ⟨ps', R⟩ := binLoop_ret C _ _ _ _ _ _ _ _ hb
                rcases R.root with ⟨-, rfl⟩ | ⟨-, _, _, _, rfl, -⟩
                · exact ho
                · rfl
              have := hend rhs (after q.pcd ps) harr
                (fun p hp => hps' p (List.dropWhile_subset _ hp)) hah h'
              have hcu := chk_unary (lg || op == .and || op == .or) (nl || op == .nullish)
                (lastUnary o.unary (upTo q.pcd ps)) false (upTo min (after q.pcd ps)) (by
                  intro p hp
                  cases hps2 : after q.pcd ps with
                  | nil => rw [hps2] at hp; cases hp
                  | cons p' ps' =>
                    rw [hps2] at hp
                    simp only [upTo, List.takeWhile_cons] at hp
                    split at hp
                    · simp only [List.head?_cons, Option.some.injEq] at hp
                      subst hp
                      exact hah p' (by rw [hps2]; rfl)
                    · cases hp)
              simp only [Bool.true_and, hcu]
              exact this
            · rw [if_neg hcI] at hI
              obtain ⟨e, he'⟩ := hI
              cases he'
    · have hs : Stop C min (chain ((op, o) :: ps) ++ rest) := by
        intro q hq
        rw [nextOp_chain C _ _ _ he] at hq
        simp only [Option.some.injEq] at hq
        subst hq
        omega
      rw [binLoop_stop hs] at h
      simp only [Option.some.injEq] at h
      subst h
      have hup : upTo min ((op, o) :: ps) = [] := by
        simp [upTo, hm]
      have haf : after min ((op, o) :: ps) = (op, o) :: ps := by
        simp [after, hm]
      rw [hup, haf]
      simp [chk]

end Mole.Parser
