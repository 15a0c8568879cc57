import Verif.Parser.ExprSpec
namespace Mole.Parser
open Spec

theorem level_pcd (o : BinOp) : level o + 5 = o.pcd := by cases o <;> rfl

theorem pcd_le (o : BinOp) : 6 ≤ o.pcd ∧ o.pcd ≤ 16 := by cases o <;> decide

theorem pcd_16 (o : BinOp) : o.pcd = 16 ↔ o = .pow := by cases o <;> decide

theorem right_iff (o : BinOp) : o.rightAssoc = true ↔ o = .pow := by cases o <;> decide

theorem isBin_bin (C : ExprCfg) (op : BinOp) (t : List Tok) :
    isBin C (.bin op :: t) =
      if (op = .in_ → C.notIn = false) ∧ (op = .as_ → C.ts = true) then some op else none := by
  cases op <;> simp [isBin]
  · cases C.notIn <;> simp

theorem isBin_some {C : ExprCfg} {s : List Tok} {op : BinOp} (h : isBin C s = some op) :
    ∃ t, s = .bin op :: t ∧ (op = .in_ → C.notIn = false) ∧ (op = .as_ → C.ts = true) := by
  cases s with
  | nil => simp [isBin] at h
  | cons x t =>
    cases x with
    | bin o =>
      rw [isBin_bin] at h
      split at h
      · rename_i hh
        simp only [Option.some.injEq] at h
        subst h
        exact ⟨t, rfl, hh⟩
      · cases h
    | _ => simp [isBin] at h

/-- The next operator, `>` excluded where it closes type arguments. -/
def nextOp (C : ExprCfg) (s : List Tok) : Option BinOp :=
  match isBin C s with
  | some op => if op = .gt ∧ C.notGT = true then none else some op
  | none => none

theorem nextOp_iff {C : ExprCfg} {s : List Tok} {op : BinOp} :
    nextOp C s = some op ↔ ∃ t, s = .bin op :: t ∧ Enabled C op := by
  unfold nextOp
  constructor
  · intro h
    split at h
    · rename_i o ho
      split at h
      · cases h
      · rename_i hg
        simp only [Option.some.injEq] at h
        subst h
        obtain ⟨t, h1, h2, h3⟩ := isBin_some ho
        refine ⟨t, h1, h2, h3, ?_⟩
        intro he
        cases hc : C.notGT with
        | false => rfl
        | true => exact absurd ⟨he, hc⟩ hg
    · cases h
  · rintro ⟨t, rfl, h1, h2, h3⟩
    rw [isBin_bin, if_pos ⟨h1, h2⟩]
    simp only
    rw [if_neg]
    rintro ⟨he, hc⟩
    rw [h3 he] at hc
    cases hc

theorem nextOp_none {C : ExprCfg} {s : List Tok} : nextOp C s = none ↔ NoOp C s := by
  constructor
  · intro h op t hs he
    rw [nextOp_iff.2 ⟨t, hs, he⟩] at h
    cases h
  · intro h
    cases hn : nextOp C s with
    | none => rfl
    | some op =>
      obtain ⟨t, h1, h2⟩ := nextOp_iff.1 hn
      exact absurd h2 (h op t h1)

/-- No operator of precedence `min` or more is next. -/
def Stop (C : ExprCfg) (min : Nat) (s : List Tok) : Prop :=
  ∀ op, nextOp C s = some op → op.pcd < min

/-- The condition of the outer loop in terms of `nextOp`. -/
theorem stop_iff {C : ExprCfg} {min : Nat} {s : List Tok} {op : BinOp} (h : isBin C s = some op) :
    (op.pcd < min ∨ (op = .gt ∧ C.notGT = true)) ↔ Stop C min s := by
  unfold Stop nextOp
  rw [h]
  simp only
  by_cases hg : op = .gt ∧ C.notGT = true
  · simp [hg]
  · simp only [hg, or_false, if_false, Option.some.injEq]
    constructor
    · rintro h1 _ rfl; exact h1
    · intro h1; exact h1 op rfl

theorem stop_none {C : ExprCfg} {min : Nat} {s : List Tok} (h : isBin C s = none) :
    Stop C min s := by
  unfold Stop nextOp
  rw [h]
  intro op h
  cases h

/-- `binLoop` does nothing at a stop. -/
theorem binLoop_stop {C : ExprCfg} {min : Nat} {s : List Tok} (h : Stop C min s) (f : Nat)
    (lhs : Tree) (lg nl : Bool) : binLoop C (f + 1) lhs min lg nl s = some (.ok (lhs, s)) := by
  rw [binLoop]
  cases hb : isBin C s with
  | none => rfl
  | some op =>
    simp only
    rw [if_pos ((stop_iff hb).2 h)]

/-- The body of the outer loop, past the conditions that stop it. -/
def binStep (C : ExprCfg) (f : Nat) (op : BinOp) (lhs : Tree) (min : Nat) (lg nl : Bool)
    (t : List Tok) : Option (Except ExprErr (Tree × List Tok)) :=
  if (lg = true ∧ op = .nullish) ∨ (nl = true ∧ (op = .and ∨ op = .or)) then
    some (.error .mixed)
  else if op = .pow ∧ C.pow = false then some (.error .powDisabled)
  else
    match t with
    | .operand o :: s2 =>
      match innerLoop C f op.pcd (.leaf o) (lg || op == .and || op == .or)
          (nl || op == .nullish) s2 with
      | none => none
      | some (.error e) => some (.error e)
      | some (.ok (rhs, s3)) =>
        if lhs.isUnary = true ∧ op = .pow then some (.error .unaryBeforePow)
        else if rhs.isArrow = true then some (.error .arrow)
        else
          binLoop C f (.bin op lhs rhs) min (lg || op == .and || op == .or)
            (nl || op == .nullish) s3
    | _ => some (.error .unexpected)

theorem binLoop_step {C : ExprCfg} {min : Nat} {op : BinOp} {t : List Tok} (he : Enabled C op)
    (hm : min ≤ op.pcd) (f : Nat) (lhs : Tree) (lg nl : Bool) :
    binLoop C (f + 1) lhs min lg nl (.bin op :: t) = binStep C f op lhs min lg nl t := by
  rw [binLoop]
  have hb : isBin C (.bin op :: t) = some op := by
    rw [isBin_bin, if_pos ⟨he.1, he.2.1⟩]
  rw [hb]
  simp only
  rw [if_neg]
  · rfl
  · rintro (h | ⟨h1, h2⟩)
    · omega
    · rw [he.2.2 h1] at h2; cases h2

theorem stop_or (C : ExprCfg) (min : Nat) (s : List Tok) :
    Stop C min s ∨ ∃ op t, s = .bin op :: t ∧ Enabled C op ∧ min ≤ op.pcd := by
  cases h : nextOp C s with
  | none => exact .inl (by simp [Stop, h])
  | some op =>
    obtain ⟨t, h1, h2⟩ := nextOp_iff.1 h
    by_cases hm : min ≤ op.pcd
    · exact .inr ⟨op, t, h1, h2, hm⟩
    · left
      intro o ho
      rw [h] at ho
      simp only [Option.some.injEq] at ho
      subst ho
      omega

/-- Where `binLoop` ends it stops. -/
theorem binLoop_ends {C : ExprCfg} (f : Nat) : ∀ {lhs : Tree} {min : Nat} {lg nl : Bool}
    {s : List Tok} {t : Tree} {rest : List Tok},
    binLoop C f lhs min lg nl s = some (.ok (t, rest)) → Stop C min rest := by
  induction f with
  | zero => intro lhs min lg nl s t rest h; simp [binLoop] at h
  | succ f ih =>
    intro lhs min lg nl s t rest h
    rcases stop_or C min s with hs | ⟨op, t', rfl, he, hm⟩
    · rw [binLoop_stop hs] at h
      simp only [Option.some.injEq, Except.ok.injEq, Prod.mk.injEq] at h
      obtain ⟨-, rfl⟩ := h
      exact hs
    · rw [binLoop_step he hm] at h
      unfold binStep at h
      split at h
      · cases h
      split at h
      · cases h
      split at h
      · split at h
        · cases h
        · cases h
        · split at h
          · cases h
          split at h
          · cases h
          · exact ih h
      · cases h

/-- The operator the inner loop goes on with. -/
def Tight (C : ExprCfg) (pcd : Nat) (s : List Tok) (op : BinOp) : Prop :=
  nextOp C s = some op ∧ (op.pcd > pcd ∨ (op.pcd = pcd ∧ op = .pow))

theorem innerLoop_gt {C : ExprCfg} {s : List Tok} (hb : isBin C s = some .gt)
    (hg : C.notGT = true) (f pcd : Nat) (rhs : Tree) (lg nl : Bool) (x)
    (h : innerLoop C f pcd rhs lg nl s = some x) : x = .ok (rhs, s) := by
  have hst : ∀ m, Stop C m s := fun m => (stop_iff hb).1 (.inr ⟨rfl, hg⟩)
  cases f with
  | zero => simp [innerLoop] at h
  | succ f =>
    rw [innerLoop, hb] at h
    simp only at h
    split at h
    · cases f with
      | zero => simp [binLoop] at h
      | succ f =>
        rw [binLoop_stop (hst _)] at h
        simp only at h
        rw [innerLoop, hb] at h
        simp only [gt_iff_lt, Nat.lt_irrefl, true_and, false_or] at h
        rw [if_neg (by decide)] at h
        exact (Option.some.inj h).symm
    · exact (Option.some.inj h).symm

theorem innerLoop_none {C : ExprCfg} {s : List Tok} {pcd : Nat}
    (ht : ∀ op, ¬ Tight C pcd s op) (f : Nat) (rhs : Tree) (lg nl : Bool) (x)
    (h : innerLoop C f pcd rhs lg nl s = some x) : x = .ok (rhs, s) := by
  cases hb : isBin C s with
  | none =>
    cases f with
    | zero => simp [innerLoop] at h
    | succ f =>
      rw [innerLoop, hb] at h
      exact (Option.some.inj h).symm
  | some op =>
    by_cases hg : op = .gt ∧ C.notGT = true
    · obtain ⟨rfl, hg⟩ := hg
      exact innerLoop_gt hb hg f pcd rhs lg nl x h
    · have hn : nextOp C s = some op := by
        unfold nextOp
        rw [hb]
        simp only
        rw [if_neg hg]
      have := ht op
      simp only [Tight, hn, true_and, ← right_iff] at this
      cases f with
      | zero => simp [innerLoop] at h
      | succ f =>
        rw [innerLoop, hb] at h
        simp only at h
        rw [if_neg this] at h
        exact (Option.some.inj h).symm

/-- The inner loop makes at most one step that reads anything. -/
theorem innerLoop_tight {C : ExprCfg} {s : List Tok} {pcd : Nat} {op : BinOp}
    (ht : Tight C pcd s op) (f : Nat) (rhs : Tree) (lg nl : Bool) (x)
    (h : innerLoop C f pcd rhs lg nl s = some x) :
    ∃ f', f = f' + 1 ∧ binLoop C f' rhs op.pcd lg nl s = some x := by
  obtain ⟨hn, hp⟩ := ht
  obtain ⟨t, rfl, he⟩ := nextOp_iff.1 hn
  have hb : isBin C (.bin op :: t) = some op := by
    rw [isBin_bin, if_pos ⟨he.1, he.2.1⟩]
  rw [← right_iff] at hp
  cases f with
  | zero => simp [innerLoop] at h
  | succ f =>
    refine ⟨f, rfl, ?_⟩
    rw [innerLoop, hb] at h
    simp only at h
    rw [if_pos hp] at h
    split at h
    · cases h
    · rename_i e heq
      rw [heq]
      exact h
    · rename_i rhs' s' heq
      have hst := binLoop_ends f heq
      have := innerLoop_none (C := C) (s := s') (pcd := op.pcd) (by
        rintro o ⟨h1, h2⟩
        have := hst o h1
        omega) f rhs' lg nl x h
      rw [heq, this]

theorem innerLoop_cases {C : ExprCfg} (pcd : Nat) (s : List Tok) :
    (∀ op, ¬ Tight C pcd s op) ∨ ∃ op, Tight C pcd s op := by
  cases hn : nextOp C s with
  | none => left; rintro op ⟨h, -⟩; rw [hn] at h; cases h
  | some op =>
    by_cases hp : op.pcd > pcd ∨ (op.pcd = pcd ∧ op = .pow)
    · exact .inr ⟨op, hn, hp⟩
    · left
      rintro o ⟨h, h2⟩
      rw [hn] at h
      simp only [Option.some.injEq] at h
      subst h
      exact hp h2

end Mole.Parser
