import Verif.Lexer.Alias
/-! # C75: a token is what it was read as, as long as the parser looks at it

Full statement: whatever the parser does between getting a token and looking at it, it finds the token it got; the operator of a prefix
update is the one written.  This holds only as long as fewer than five tokens have been read ahead since. -/

namespace Mole.Lexer.Alias

variable {T : Type}

/-! ## Specification -/

/-- Does it write a token? -/
def Act.writes : Act T → Bool
  | .take => false
  | _ => true

/-- The token it writes. -/
def Act.token : Act T → Option T
  | .ahead t | .direct t | .fin t => some t
  | .take => none

/-- How many tokens are read ahead. -/
def aheads : List (Act T) → Nat
  | [] => 0
  | .ahead _ :: l => aheads l + 1
  | _ :: l => aheads l

/-! ## Proofs -/

/-- After `k` lookaheads no token is written after the fourth. -/
def early : Nat → List (Act T) → Bool
  | _, [] => true
  | k, .take :: l => early k l
  | k, .fin _ :: l => decide (k ≠ 4) && early k l
  | k, .direct _ :: l => decide (k ≠ 4) && early k l
  | k, .ahead _ :: l => decide (k ≠ 4) && early (k + 1) l

theorem early_iff (l : List (Act T)) : ∀ k, k ≤ 4 → (early k l = true ↔
    ∀ l₁ a l₂, l = l₁ ++ a :: l₂ → a.writes = true → k + aheads l₁ ≤ 3) := by
  induction l with
  | nil => intro k _; simp [early]
  | cons x l ih =>
    intro k hk
    have key : (∀ l₁ a l₂, x :: l = l₁ ++ a :: l₂ → a.writes = true → k + aheads l₁ ≤ 3) ↔
        (x.writes = true → k ≤ 3) ∧
        (∀ l₁ a l₂, l = l₁ ++ a :: l₂ → a.writes = true → k + aheads (x :: l₁) ≤ 3) := by
      constructor
      · intro h
        exact ⟨fun hx => h [] x l rfl hx, fun l₁ a l₂ hl ha => h (x :: l₁) a l₂ (by simp [hl]) ha⟩
      · rintro ⟨h₁, h₂⟩ l₁ a l₂ hl ha
        cases l₁ with
        | nil => obtain ⟨rfl, rfl⟩ : x = a ∧ l = l₂ := by simpa using hl
                 exact h₁ ha
        | cons y l₁ =>
          obtain ⟨rfl, rfl⟩ : x = y ∧ l = l₁ ++ a :: l₂ := by simpa using hl
          exact h₂ l₁ a l₂ rfl ha
    rw [key]
    cases x with
    | take => simpa [early, Act.writes, aheads] using ih k hk
    | fin t | direct t =>
      simp only [early, Act.writes, aheads, Bool.and_eq_true, decide_eq_true_eq, forall_const]
      rw [ih k hk]
      exact and_congr_left fun _ => by omega
    | ahead t =>
      simp only [early, Act.writes, aheads, Bool.and_eq_true, decide_eq_true_eq, forall_const]
      by_cases h4 : k = 4
      · simp only [h4]
        constructor
        · rintro ⟨h, _⟩; exact absurd rfl h
        · rintro ⟨h, _⟩; omega
      · rw [ih (k + 1) (by omega)]
        constructor
        · rintro ⟨_, h⟩
          exact ⟨by omega, fun l₁ a l₂ hl ha => by have := h l₁ a l₂ hl ha; omega⟩
        · rintro ⟨_, h⟩
          exact ⟨h4, fun l₁ a l₂ hl ha => by have := h l₁ a l₂ hl ha; omega⟩

theorem incW_mod {b : TB T} (h : b.w < 5) : b.incW = (b.w + 1) % 5 := by
  by_cases h5 : b.w + 1 = 5
  · simp [TB.incW, bufLen, h5]
  · simp [TB.incW, bufLen, h5]; omega

/-- One step: where the next token goes, and what is in each cell. -/
theorem step_cells {b b' : TB T} {a : Act T} (hw : b.w < 5) (h : step b a = some b') (c : Nat) :
    b'.w = (match a with | .ahead _ => (b.w + 1) % 5 | _ => b.w) ∧
    b'.buf c = (match a.token with | some t => if c = b.w then t else b.buf c | none => b.buf c) := by
  cases a with
  | ahead t =>
    simp only [step, TB.advance, TB.write] at h
    split at h
    · cases h
      exact ⟨incW_mod hw, rfl⟩
    · cases h
  | fin t =>
    simp only [step] at h
    cases h; exact ⟨rfl, rfl⟩
  | direct t =>
    simp only [step] at h
    split at h
    · cases h; exact ⟨rfl, rfl⟩
    · cases h
  | take =>
    simp only [step, TB.read] at h
    split at h
    · simp at h; subst h; exact ⟨rfl, rfl⟩
    · simp at h

theorem run_cons {b b'' : TB T} {a : Act T} {l : List (Act T)} (h : run b (a :: l) = some b'') :
    ∃ b', step b a = some b' ∧ run b' l = some b'' := by
  simpa [run, Option.bind_eq_some_iff] using h

theorem lost (t : T) (c : Nat) (l : List (Act T)) : ∀ {b b' : TB T}, b.w < 5 → run b l = some b' →
    (∀ a ∈ l, a.token ≠ some t) → b.buf c ≠ t → b'.buf c ≠ t := by
  induction l with
  | nil => intro b b' _ h _ hc; cases h; exact hc
  | cons a l ih =>
    intro b b'' hw h ht hc
    obtain ⟨b', hs, hr⟩ := run_cons h
    obtain ⟨hw', hc'⟩ := step_cells hw hs c
    refine ih (b := b') ?_ hr (fun a h => ht a (.tail _ h)) ?_
    · rw [hw']; split <;> omega
    · have hta := ht a (.head _)
      rw [hc']
      cases hat : a.token with
      | none => exact hc
      | some s =>
        rw [hat] at hta
        simp only
        split
        · exact fun h => hta (by rw [h])
        · exact hc

theorem cell_iff (t : T) (c : Nat) (hc5 : c < 5) (l : List (Act T)) : ∀ {b b' : TB T} {k : Nat}, k ≤ 4 → b.w = (c + 1 + k) % 5 →
    run b l = some b' → (∀ a ∈ l, a.token ≠ some t) → b.buf c = t → (b'.buf c = t ↔ early k l = true) := by
  induction l with
  | nil => intro b b' k _ _ h _ hc; cases h; simp [hc, early]
  | cons a l ih =>
    intro b b'' k hk hw h ht hc
    obtain ⟨b', hs, hr⟩ := run_cons h
    have hw5 : b.w < 5 := by omega
    obtain ⟨hw', hc'⟩ := step_cells hw5 hs c
    have ht' : ∀ a ∈ l, a.token ≠ some t := fun a h => ht a (.tail _ h)
    have hta := ht a (.head _)
    cases a with
    | take => exact ih hk (by rw [hw']; exact hw) hr ht' (by simpa [Act.token, hc] using hc')
    | fin s | direct s =>
      simp only [Act.token] at hc' hta
      simp only [early, Bool.and_eq_true, decide_eq_true_eq]
      by_cases h4 : k = 4
      · have : c = b.w := by omega
        rw [if_pos this] at hc'
        have := lost t c l (b := b') (by rw [hw']; exact hw5) hr ht' (by rw [hc']; exact fun h => hta (by rw [h]))
        simp [this, h4]
      · have : c ≠ b.w := by omega
        rw [if_neg this] at hc'
        rw [ih hk (by rw [hw']; exact hw) hr ht' (hc'.trans hc)]
        simp [h4]
    | ahead s =>
      simp only [Act.token] at hc' hta
      simp only [early, Bool.and_eq_true, decide_eq_true_eq]
      by_cases h4 : k = 4
      · have : c = b.w := by omega
        rw [if_pos this] at hc'
        have := lost t c l (b := b') (by rw [hw']; simp only; omega) hr ht' (by rw [hc']; exact fun h => hta (by rw [h]))
        simp [this, h4]
      · have : c ≠ b.w := by omega
        rw [if_neg this] at hc'
        rw [ih (k := k + 1) (by omega) (by rw [hw']; simp only; omega) hr ht' (hc'.trans hc)]
        simp [h4]

/-! ## Theorems -/

/-- A token looked at is still the same at the end exactly if none is written once four more have been read ahead. -/
theorem token_kept_iff {b b₁ b₂ : TB T} {t : T} {l : List (Act T)} (hw : b.w < 5) (h₁ : step b (.ahead t) = some b₁)
    (h₂ : run b₁ l = some b₂) (ht : ∀ a ∈ l, a.token ≠ some t) :
    b₂.buf b.w = t ↔ ∀ l₁ a l₂, l = l₁ ++ a :: l₂ → a.writes = true → aheads l₁ ≤ 3 := by
  obtain ⟨hw', hc'⟩ := step_cells hw h₁ b.w
  rw [cell_iff t b.w hw l (k := 0) (by omega) (by rw [hw']) h₂ ht (by simpa [Act.token] using hc'), early_iff l 0 (by omega)]
  simp

/-- Two tokens read ahead after it, in a fresh ring. -/
example : ∃ b₁ b₂ : TB Nat, step (TB.new 0) (.ahead 7) = some b₁ ∧ run b₁ [.take, .ahead 8, .take, .direct 9, .ahead 10] = some b₂ ∧
    b₂.buf 0 = 7 := by
  refine ⟨_, _, rfl, rfl, by decide⟩

/-- A token read by `Next` without a look is gone with the next token. -/
theorem direct_lost {b b₁ b₂ : TB T} {t s : T} {a : Act T} (h₁ : step b (.direct t) = some b₁) (h₂ : step b₁ a = some b₂)
    (hw : b.w < 5) (ha : a.token = some s) : b₁.buf b.w = t ∧ b₂.buf b.w = s := by
  obtain ⟨hw', hc'⟩ := step_cells hw h₁ b.w
  obtain ⟨_, hc''⟩ := step_cells (b := b₁) (by rw [hw']; exact hw) h₂ b.w
  refine ⟨by simpa [Act.token] using hc', ?_⟩
  rw [hc'', ha, hw']
  simp

example : ∃ b₁ b₂ : TB Nat, step (TB.new 0) (.direct 7) = some b₁ ∧ step b₁ (.ahead 8) = some b₂ ∧ b₁.buf 0 = 7 ∧ b₂.buf 0 = 8 :=
  ⟨_, _, rfl, rfl, by decide, by decide⟩

theorem early_append {l₁ l₂ : List (Act T)} : ∀ {k : Nat}, early k l₁ = false → early k (l₁ ++ l₂) = false := by
  induction l₁ with
  | nil => intro k h; simp [early] at h
  | cons x l ih =>
    intro k h
    cases x <;> simp only [List.cons_append, early, Bool.and_eq_false_iff, decide_eq_false_iff_not, Decidable.not_not] at h ⊢
    · exact h.imp_right ih
    · exact h.imp_right ih
    · exact h.imp_right ih
    · exact ih h

theorem run_append {l₁ l₂ : List (Act T)} : ∀ {b : TB T}, run b (l₁ ++ l₂) = (run b l₁).bind (run · l₂) := by
  induction l₁ with
  | nil => intro b; rfl
  | cons x l ih =>
    intro b
    simp only [List.cons_append, run]
    cases step b x with
    | none => rfl
    | some b' => exact ih

theorem ahead_take (b : TB T) (h : b.len = 0) (t : T) :
    ∃ b₁ b₂, step b (.ahead t) = some b₁ ∧ step b₁ .take = some b₂ ∧ b₂.len = 0 ∧ b₁.len = 1 := by
  have h₁ : step b (.ahead t) = some { b.fill t with len := (b.fill t).len + 1, w := (b.fill t).incW } := by
    simp only [step, TB.advance, TB.write]
    rw [if_pos (by simp [TB.fill, h, bufLen])]
  have hl : ({ b.fill t with len := (b.fill t).len + 1, w := (b.fill t).incW } : TB T).len = 1 := by simp [TB.fill, h]
  generalize ({ b.fill t with len := (b.fill t).len + 1, w := (b.fill t).incW } : TB T) = b₁ at h₁ hl
  refine ⟨b₁, { b₁ with len := b₁.len - 1, r := b₁.incR }, h₁, ?_, by simp [hl], hl⟩
  simp [step, TB.read, hl]

theorem members_run (l : List Nat) : ∀ b : TB Tok, b.len = 0 → ∃ b', run b (members l) = some b' ∧ b'.len = 0 := by
  induction l with
  | nil => intro b h; exact ⟨b, rfl, h⟩
  | cons n l ih =>
    intro b h
    obtain ⟨b₁, b₂, h₁, h₂, h₃, _⟩ := ahead_take b h .dot
    obtain ⟨b', hr, hl⟩ := ih (b₂.fill (.name n)) h₃
    exact ⟨b', by simp [members, run, h₁, h₂]; simp [step, h₃, hr], hl⟩

theorem look_run (b : TB Tok) (h : b.len = 0) (x : Tok) : ∃ b', step b (look x) = some b' := by
  cases x with
  | eof => exact ⟨_, rfl⟩
  | _ => obtain ⟨b', _, h', _⟩ := ahead_take b h _; exact ⟨b', h'⟩

theorem look_token (x : Tok) : (look x).token = some x := by cases x <;> rfl

theorem argument_run (b : TB Tok) (h : b.len = 0) (a : Nat) (l : List Nat) (x : Tok) :
    ∃ b₁ b₂, step b (.ahead .inc) = some b₁ ∧ run b₁ (argument a l x) = some b₂ := by
  obtain ⟨b₁, b₂, h₁, h₂, h₃, _⟩ := ahead_take b h .inc
  obtain ⟨b₃, b₄, h₄, h₅, h₆, _⟩ := ahead_take b₂ h₃ (.name a)
  obtain ⟨b₅, h₇, h₈⟩ := members_run l b₄ h₆
  obtain ⟨b₆, h₉⟩ := look_run b₅ h₈ x
  refine ⟨b₁, b₆, h₁, ?_⟩
  rw [argument, List.append_assoc, run_append]
  simp only [run, h₂, h₄, h₅, Option.bind_some]
  rw [run_append, h₇]
  simp [run, h₉]

theorem members_token (l : List Nat) : ∀ a ∈ members l, a.token ≠ some .inc := by
  induction l with
  | nil => simp [members]
  | cons n l ih =>
    simp only [members, List.mem_cons]
    rintro a (rfl | rfl | rfl | h)
    · simp [Act.token]
    · simp [Act.token]
    · simp [Act.token]
    · exact ih a h

theorem argument_early (a : Nat) (l : List Nat) (x : Tok) : early 0 (argument a l x) = true ↔ l.length ≤ 2 := by
  match l with
  | [] => cases x <;> simp [argument, members, look, early]
  | [_] => cases x <;> simp [argument, members, look, early]
  | [_, _] => cases x <;> simp [argument, members, look, early]
  | n₁ :: n₂ :: n₃ :: l =>
    constructor
    · intro h
      have : early 0 ([.take, .ahead (.name a), .take] ++ members [n₁, n₂, n₃] : List (Act Tok)) = false := by
        simp [members, early]
      have := early_append (l₂ := members l ++ [look x]) this
      rw [argument] at h
      simp only [members, List.cons_append, List.nil_append, List.append_assoc] at h this
      rw [h] at this
      cases this
    · intro h; simp at h

/-- The operator of `++a.b.…` is `++` exactly if there are at most two members. -/
theorem update_op_iff (b : TB Tok) (hb : b.len = 0) (hw : b.w < 5) (a : Nat) (l : List Nat) (x : Tok) (hx : x ≠ .inc) :
    updateOp b a l x = some .inc ↔ l.length ≤ 2 := by
  obtain ⟨b₁, b₂, h₁, h₂⟩ := argument_run b hb a l x
  have ht : ∀ y ∈ argument a l x, y.token ≠ some .inc := by
    intro y hy
    simp only [argument, List.mem_append, List.mem_cons, List.not_mem_nil, or_false] at hy
    rcases hy with ((rfl | rfl | rfl) | h) | rfl
    · simp [Act.token]
    · simp [Act.token]
    · simp [Act.token]
    · exact members_token l y h
    · simpa [look_token] using hx
  have h₁' : b.advance .inc = some b₁ := h₁
  rw [updateOp, h₁', Option.bind_some, h₂, Option.map_some, Option.some_inj]
  rw [token_kept_iff hw h₁ h₂ ht]
  have := early_iff (argument a l x) 0 (by omega)
  simp only [Nat.zero_add] at this
  rw [← this]
  exact argument_early a l x

/-- `++a.b.c;` -/
example : updateOp (TB.new (.other 0)) 1 [2, 3] (.other 9) = some .inc := by decide

/-- `++a.b.c` at the end of the code -/
example : updateOp (TB.new (.other 0)) 1 [2, 3] .eof = some .inc := by decide

/-- `++a.b.c.d;`: the operator of the node is the semicolon. -/
theorem update_op_violated : updateOp (TB.new (.other 0)) 1 [2, 3, 4] (.other 9) = some (.other 9) := by decide

end Mole.Lexer.Alias
