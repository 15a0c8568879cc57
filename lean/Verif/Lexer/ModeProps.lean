import Verif.Lexer.Mode
/-!
# Properties C06 and C07: the mode stack and rewinding
-/
namespace Mole.Lexer

variable {R : Type}

/-! ## Specification: a stack of modes is a list, bottom first. -/

/-- The modes on the current stack, bottom first. -/
def modes (l : Lx R) : List Mode :=
  (List.range l.state.mode.len).map fun i => l.heap l.state.mode.arr i

/-- The flags a pushed mode takes over. -/
def inheritable (kind : Nat) : Nat :=
  (kind &&& LM_STRICT) ||| (kind &&& LM_ASYNC) ||| (kind &&& LM_TS)

/-- Change of the top element. -/
def onTop (f : Mode → Mode) (st : List Mode) : List Mode :=
  match st.getLast? with
  | some m => st.dropLast ++ [f m]
  | none => []

/-- Effect of the calls on the stack. -/
def specModes (st : List Mode) : ModeOp R → List Mode
  | .pushMode m inherit =>
    st ++ [⟨if inherit then m ||| inheritable ((st.getLast?.map (·.kind)).getD 0) else m, 0⟩]
  | .popMode => if st.length = 1 then [⟨0, 0⟩] else st.dropLast
  | .addMode k => onTop (fun m => { m with kind := m.kind ||| k }) st
  | .eraseMode k => onTop (fun m => { m with kind := m.kind ^^^ (m.kind &&& k) }) st
  | .bumpParen d => onTop (fun m => { m with paren := m.paren + d }) st
  | _ => st

/-- Calls that neither save nor restore a state. -/
def ModeOp.plain : ModeOp R → Bool
  | .pushState | .popState | .discardState => false
  | _ => true

/-! ## Invariant -/

def SliceOk (next : Nat) (s : Slice) : Prop := 1 ≤ s.len ∧ s.len ≤ s.cap ∧ s.arr < next

structure MInv (l : Lx R) : Prop where
  cur : SliceOk l.next l.state.mode
  saved : ∀ s ∈ l.ss, SliceOk l.next s.mode

theorem MInv.new (r : R) : MInv (Lx.new r) := by
  constructor <;> simp [Lx.new, SliceOk]

theorem SliceOk.mono {n : Nat} {s : Slice} (h : SliceOk n s) : SliceOk (n + 1) s :=
  ⟨h.1, h.2.1, by have := h.2.2; omega⟩

theorem MInv.step {l l' : Lx R} (grow : Nat → Nat) (h : MInv l) {op : ModeOp R}
    (hs : l.step grow op = some l') : MInv l' := by
  cases op with
  | pushMode m i =>
    simp only [Lx.step, Option.some.injEq] at hs
    subst hs
    have := h.cur
    unfold Lx.pushMode
    simp only
    split
    · exact ⟨⟨by simp, by simp only; omega, this.2.2⟩, h.saved⟩
    · exact ⟨⟨by simp, by simp only; omega, by simp⟩, fun s hs => (h.saved s hs).mono⟩
  | popMode =>
    simp only [Lx.step, Option.some.injEq] at hs
    subst hs
    have := h.cur
    unfold Lx.popMode
    simp only
    split
    · exact ⟨h.cur, h.saved⟩
    · refine ⟨⟨?_, ?_, this.2.2⟩, h.saved⟩
      · have := this.1; simp only; omega
      · have := this.2.1; simp only; omega
  | addMode m | eraseMode m | bumpParen d | setRest r =>
    simp only [Lx.step, Option.some.injEq] at hs
    subst hs
    exact ⟨h.cur, h.saved⟩
  | pushState =>
    simp only [Lx.step, Option.some.injEq] at hs
    subst hs
    refine ⟨h.cur, ?_⟩
    intro s hs
    rcases List.mem_cons.mp hs with rfl | hs
    · exact h.cur
    · exact h.saved s hs
  | popState =>
    simp only [Lx.step, Lx.popState] at hs
    cases hss : l.ss with
    | nil => simp [hss] at hs
    | cons s ss =>
      simp only [hss, Option.some.injEq] at hs
      subst hs
      exact ⟨h.saved s (by simp [hss]), fun t ht => h.saved t (by simp [hss, ht])⟩
  | discardState =>
    simp only [Lx.step, Lx.discardState] at hs
    cases hss : l.ss with
    | nil => simp [hss] at hs
    | cons s ss =>
      simp only [hss, Option.some.injEq] at hs
      subst hs
      exact ⟨h.cur, fun t ht => h.saved t (by simp [hss, ht])⟩

theorem MInv.run {l l' : Lx R} (grow : Nat → Nat) (h : MInv l) {ops : List (ModeOp R)}
    (hr : l.run grow ops = some l') : MInv l' := by
  induction ops generalizing l with
  | nil => cases hr; exact h
  | cons op ops ih =>
    simp only [Lx.run, Option.bind_eq_some_iff] at hr
    obtain ⟨l1, h1, h2⟩ := hr
    exact ih (h.step grow h1) h2

/-! ## C07 -/

theorem modes_split {l : Lx R} (h : 1 ≤ l.state.mode.len) :
    modes l = (List.range (l.state.mode.len - 1)).map (fun i => l.heap l.state.mode.arr i) ++
      [l.curMode] := by
  obtain ⟨n, hn⟩ : ∃ n, l.state.mode.len = n + 1 := ⟨l.state.mode.len - 1, by omega⟩
  simp only [modes, hn, List.range_succ, List.map_append, List.map_cons, List.map_nil, Lx.curMode,
    Nat.add_sub_cancel]

theorem modes_modCur {l : Lx R} (h : 1 ≤ l.state.mode.len) (f : Mode → Mode) :
    modes (l.modCur f) = onTop f (modes l) := by
  have h' : 1 ≤ (l.modCur f).state.mode.len := h
  rw [modes_split h', modes_split h]
  simp only [onTop, List.getLast?_append, List.getLast?_singleton, Option.some_or,
    List.dropLast_concat]
  congr 1
  · apply List.map_congr_left
    intro i hi
    simp only [List.mem_range] at hi
    simp only [Lx.modCur, setHeap] at hi ⊢
    rw [if_neg (by omega)]
  · simp [Lx.modCur, Lx.curMode, setHeap]

/-- **C07.** Every call acts on the mode stack as on a list: `PushMode` puts one mode on top,
with the strict, async and TypeScript flags of the previous top if inheritance is asked for;
`PopMode` takes the top away, but resets the bottom mode instead of removing it; the other
calls change the top only. -/
theorem modes_step (grow : Nat → Nat) {l l' : Lx R} (h : MInv l) {op : ModeOp R}
    (hp : op.plain = true) (hs : l.step grow op = some l') : modes l' = specModes (modes l) op := by
  have h1 := h.cur.1
  have hlen : (modes l).length = l.state.mode.len := by simp [modes]
  have hlast : (modes l).getLast? = some l.curMode := by
    rw [modes_split h1]; simp
  cases op with
  | pushMode m i =>
    simp only [Lx.step, Option.some.injEq] at hs
    subst hs
    have hk : (if i = true then m ||| l.inherited else m) =
        if i = true then m ||| inheritable (((modes l).getLast?.map (·.kind)).getD 0) else m := by
      rw [hlast]
      simp [Lx.inherited, inheritable]
    simp only [specModes]
    rw [← hk]
    unfold Lx.pushMode
    simp only
    split
    · simp only [modes, List.range_succ, List.map_append, List.map_cons, List.map_nil]
      congr 1
      · apply List.map_congr_left
        intro i hi
        simp only [List.mem_range] at hi
        simp only [setHeap]
        rw [if_neg (by omega)]
      · simp [setHeap]
    · simp only [modes, List.range_succ, List.map_append, List.map_cons, List.map_nil, if_true]
      congr 1
      apply List.map_congr_left
      intro i hi
      simp only [List.mem_range] at hi
      rw [if_neg (by omega), if_pos hi]
  | popMode =>
    simp only [Lx.step, Option.some.injEq] at hs
    subst hs
    simp only [specModes, hlen]
    unfold Lx.popMode
    simp only
    split
    · rename_i he
      simp [modes, he, setHeap, List.range_succ]
    · rename_i he
      rw [modes_split h1, List.dropLast_concat]
      rfl
  | addMode m =>
    simp only [Lx.step, Option.some.injEq] at hs
    subst hs
    exact modes_modCur h1 _
  | eraseMode m =>
    simp only [Lx.step, Option.some.injEq] at hs
    subst hs
    exact modes_modCur h1 _
  | bumpParen d =>
    simp only [Lx.step, Option.some.injEq] at hs
    subst hs
    exact modes_modCur h1 _
  | setRest r =>
    simp only [Lx.step, Option.some.injEq] at hs
    subst hs
    rfl
  | pushState | popState | discardState => simp [ModeOp.plain] at hp

/-- **C07.** `PushMode` followed by `PopMode` restores the stack and returns the pushed mode. -/
theorem pushMode_popMode (grow : Nat → Nat) {l : Lx R} (h : MInv l) (m : Nat) (i : Bool) :
    modes ((l.pushMode grow m i).popMode).2 = modes l ∧
    ((l.pushMode grow m i).popMode).1 =
      ⟨if i then m ||| inheritable l.curMode.kind else m, 0⟩ := by
  have h1 := h.cur.1
  have hlast : (modes l).getLast? = some l.curMode := by
    rw [modes_split h1]; simp
  have hp := h.step grow (op := .pushMode m i) rfl
  have e1 := modes_step grow h (op := .pushMode m i) rfl rfl
  have e2 := modes_step grow hp (op := .popMode) rfl rfl
  have hl : (modes l).length = l.state.mode.len := by simp [modes]
  simp only [specModes] at e1 e2
  constructor
  · rw [e2, e1, if_neg (by simp; intro hn; simp [hn] at hlast), List.dropLast_concat]
  · have hlast' : (modes (l.pushMode grow m i)).getLast? = some (l.pushMode grow m i).curMode := by
      rw [modes_split hp.cur.1]; simp
    rw [e1] at hlast'
    simp only [List.getLast?_append, List.getLast?_singleton, Option.some_or, hlast,
      Option.map_some, Option.getD_some, Option.some.injEq] at hlast'
    have hne : (l.pushMode grow m i).state.mode.len ≠ 1 := by
      unfold Lx.pushMode; simp only; split <;> (simp only; omega)
    unfold Lx.popMode
    simp only [if_neg hne]
    exact hlast'.symm

/-- **C07.** Bit by bit: a pushed mode has its own flags and, if asked to inherit, exactly the
strict (bit 1), async (bit 4) and TypeScript (bit 12) flags of the enclosing one. -/
theorem inherit_bits (m k i : Nat) :
    (m ||| inheritable k).testBit i =
      (m.testBit i || (k.testBit i && (i == 1 || i == 4 || i == 12))) := by
  have p2 : ∀ e, (2 ^ e).testBit i = (i == e) := by
    intro e; rw [Nat.testBit_two_pow]
    by_cases h : i = e
    · simp [h]
    · simp [h, Ne.symm h]
  have a1 : LM_STRICT = 2 ^ 1 := rfl
  have a2 : LM_ASYNC = 2 ^ 4 := rfl
  have a3 : LM_TS = 2 ^ 12 := rfl
  simp only [inheritable, Nat.testBit_or, Nat.testBit_and, a1, a2, a3, p2]
  cases m.testBit i <;> cases k.testBit i <;> simp

/-- **C07.** `IsMode` asks whether the top mode has one of the given flags; a flag is there after
`AddMode` and gone after `EraseMode`. -/
theorem isMode_iff {l : Lx R} (k : Nat) :
    (l.isMode k = true ↔ ∃ i, l.curMode.kind.testBit i = true ∧ k.testBit i = true) ∧
    (k ≠ 0 → (l.addMode k).isMode k = true) ∧ (l.eraseMode k).isMode k = false := by
  have key : ∀ (l : Lx R), l.isMode k = true ↔
      ∃ i, l.curMode.kind.testBit i = true ∧ k.testBit i = true := by
    intro l
    simp only [Lx.isMode, decide_eq_true_eq, ← Bool.and_eq_true, ← Nat.testBit_and]
    constructor
    · intro h
      exact Nat.exists_testBit_of_ne_zero (by omega)
    · rintro ⟨i, h⟩
      have := Nat.ge_two_pow_of_testBit h
      have := Nat.two_pow_pos i
      omega
  refine ⟨key l, fun h => (key _).2 ?_, ?_⟩
  · obtain ⟨i, hi⟩ := Nat.exists_testBit_of_ne_zero h
    exact ⟨i, by simp [Lx.addMode, Lx.modCur, Lx.curMode, setHeap, hi], hi⟩
  · rw [Bool.eq_false_iff]
    intro h
    obtain ⟨i, h1, h2⟩ := (key _).1 h
    simp [Lx.eraseMode, Lx.modCur, Lx.curMode, setHeap, h2] at h1

example : ((Lx.new ()).addMode LM_JSX).isMode (LM_JSX ||| LM_TS) = true ∧
    ((Lx.new ()).addMode LM_JSX).isMode LM_TS = false := by decide

/-- **C07.** A lexer starts with one mode without flags; popping the only mode returns a mode
without flags and leaves such a mode. -/
theorem popMode_bottom (r : R) (l : Lx R) (h : (modes l).length = 1) :
    modes (Lx.new r) = [⟨0, 0⟩] ∧ l.popMode.1 = ⟨0, 0⟩ ∧ modes l.popMode.2 = [⟨0, 0⟩] := by
  have h1 : l.state.mode.len = 1 := by simpa [modes] using h
  refine ⟨rfl, ?_, ?_⟩
  · simp [Lx.popMode, h1]
  · simp [Lx.popMode, h1, modes, setHeap, List.range_succ]

example : (modes ((Lx.new ()).addMode LM_TS)).length = 1 := by decide

/-- **C07.** The bottom mode is never popped: in every reachable state the stack has at least
one mode, and so have all saved ones. -/
theorem modes_nonempty (grow : Nat → Nat) (r : R) {ops : List (ModeOp R)} {l : Lx R}
    (h : (Lx.new r).run grow ops = some l) :
    1 ≤ (modes l).length ∧ ∀ s ∈ l.ss, 1 ≤ s.mode.len := by
  have := (MInv.new r).run grow h
  exact ⟨by simpa [modes] using this.cur.1, fun s hs => (this.saved s hs).1⟩

example : ((Lx.new ()).run (fun n => 2 * n) [.addMode LM_STRICT, .pushMode LM_TEMPLATE true, .popMode,
    .popMode, .pushMode LM_ASYNC false]).map modes = some [⟨0, 0⟩, ⟨16, 0⟩] := by decide

/-! ## C06 -/

/-- A run that never touches the lowest `d` modes and is balanced in saved states: `len` is
the number of modes, `saved` the numbers at the states saved meanwhile. -/
def staysAbove (d : Nat) : Nat → List Nat → List (ModeOp R) → Prop
  | _, saved, [] => saved = []
  | len, saved, op :: ops =>
    match op with
    | .pushMode _ _ => staysAbove d (len + 1) saved ops
    | .popMode => d < len ∧ staysAbove d (len - 1) saved ops
    | .addMode _ | .eraseMode _ | .bumpParen _ => d < len ∧ staysAbove d len saved ops
    | .setRest _ => staysAbove d len saved ops
    | .pushState => staysAbove d len (len :: saved) ops
    | .popState => match saved with
      | [] => False
      | n :: saved => staysAbove d n saved ops
    | .discardState => match saved with
      | [] => False
      | _ :: saved => staysAbove d len saved ops

theorem run_keeps (grow : Nat → Nat) (d a : Nat) (hd : 1 ≤ d) (ops : List (ModeOp R)) :
    ∀ (l l' : Lx R) (saved : List Nat) (tail : List (LState R)), a < l.next →
      d ≤ l.state.mode.len → (∀ n ∈ saved, d ≤ n) →
      (∃ ss, l.ss = ss ++ tail ∧ ss.map (·.mode.len) = saved) →
      staysAbove d l.state.mode.len saved ops → l.run grow ops = some l' →
      (∀ i, i < d → l'.heap a i = l.heap a i) ∧ l'.ss = tail := by
  induction ops with
  | nil =>
    intro l l' saved tail _ _ _ hss hst hr
    cases hr
    simp only [staysAbove] at hst
    obtain ⟨ss, h1, h2⟩ := hss
    subst hst
    have : ss = [] := by simpa using h2
    simp [h1, this]
  | cons op ops ih =>
    intro l l' saved tail ha hlen hsv hss hst hr
    simp only [Lx.run, Option.bind_eq_some_iff] at hr
    obtain ⟨l1, h1, h2⟩ := hr
    cases op with
    | pushMode m i =>
      simp only [Lx.step, Option.some.injEq] at h1
      simp only [staysAbove] at hst
      have hl1 : l1.state.mode.len = l.state.mode.len + 1 := by
        subst h1; unfold Lx.pushMode; simp only; split <;> rfl
      have hs1 : l1.ss = l.ss := by
        subst h1; unfold Lx.pushMode; simp only; split <;> rfl
      have hn1 : a < l1.next := by
        subst h1; unfold Lx.pushMode; simp only; split
        · exact ha
        · simp only; omega
      have hh : ∀ i, i < d → l1.heap a i = l.heap a i := by
        intro j hj
        subst h1; unfold Lx.pushMode; simp only; split
        · simp only [setHeap]; rw [if_neg (by omega)]
        · simp only; rw [if_neg (by omega)]
      obtain ⟨k1, k2⟩ := ih l1 l' saved tail hn1 (by omega) hsv (by rw [hs1]; exact hss)
        (by rw [hl1]; exact hst) h2
      exact ⟨fun j hj => (k1 j hj).trans (hh j hj), k2⟩
    | popMode =>
      simp only [Lx.step, Option.some.injEq] at h1
      simp only [staysAbove] at hst
      have e : l1 = { l with state := { l.state with mode := { l.state.mode with
          len := l.state.mode.len - 1 } } } := by
        subst h1; unfold Lx.popMode; simp only; rw [if_neg (by omega)]
      obtain ⟨k1, k2⟩ := ih l1 l' saved tail (by rw [e]; exact ha) (by rw [e]; simp only; omega) hsv
        (by rw [e]; exact hss) (by rw [e]; exact hst.2) h2
      exact ⟨fun j hj => (k1 j hj).trans (by rw [e]), k2⟩
    | addMode m | eraseMode m | bumpParen m =>
      simp only [Lx.step, Option.some.injEq] at h1
      simp only [staysAbove] at hst
      obtain ⟨k1, k2⟩ := ih l1 l' saved tail (by rw [← h1]; exact ha) (by rw [← h1]; exact hlen) hsv
        (by rw [← h1]; exact hss) (by rw [← h1]; exact hst.2) h2
      refine ⟨fun j hj => (k1 j hj).trans ?_, k2⟩
      subst h1
      simp only [Lx.addMode, Lx.eraseMode, Lx.bumpParen, Lx.modCur, setHeap]
      rw [if_neg (by omega)]
    | setRest r =>
      simp only [Lx.step, Option.some.injEq] at h1
      obtain ⟨k1, k2⟩ := ih l1 l' saved tail (by rw [← h1]; exact ha) (by rw [← h1]; exact hlen) hsv
        (by rw [← h1]; exact hss) (by rw [← h1]; exact hst) h2
      exact ⟨fun j hj => (k1 j hj).trans (by rw [← h1]), k2⟩
    | pushState =>
      simp only [Lx.step, Option.some.injEq] at h1
      simp only [staysAbove] at hst
      obtain ⟨ss, e1, e2⟩ := hss
      obtain ⟨k1, k2⟩ := ih l1 l' (l.state.mode.len :: saved) tail (by rw [← h1]; exact ha)
        (by rw [← h1]; exact hlen)
        (by
          intro n hn
          rcases List.mem_cons.mp hn with rfl | hn
          · exact hlen
          · exact hsv n hn)
        ⟨l.state :: ss, by simp [← h1, Lx.pushState, e1], by simp [e2]⟩ (by rw [← h1]; exact hst) h2
      exact ⟨fun j hj => (k1 j hj).trans (by rw [← h1]; rfl), k2⟩
    | popState =>
      simp only [staysAbove] at hst
      obtain ⟨ss, e1, e2⟩ := hss
      cases ss with
      | nil => simp only [List.map_nil] at e2; subst e2; exact absurd hst id
      | cons s ss =>
        simp only [List.map_cons] at e2
        subst e2
        have e : l1 = { l with ss := ss ++ tail, state := s } := by
          simp only [Lx.step, Lx.popState, e1, List.cons_append, Option.some.injEq] at h1
          exact h1.symm
        obtain ⟨k1, k2⟩ := ih l1 l' (ss.map (·.mode.len)) tail (by rw [e]; exact ha)
          (by rw [e]; exact hsv _ (by simp))
          (fun n hn => hsv n (by simp only [List.mem_cons]; exact .inr hn)) ⟨ss, by rw [e], rfl⟩
          (by rw [e]; exact hst) h2
        exact ⟨fun j hj => (k1 j hj).trans (by rw [e]), k2⟩
    | discardState =>
      simp only [staysAbove] at hst
      obtain ⟨ss, e1, e2⟩ := hss
      cases ss with
      | nil => simp only [List.map_nil] at e2; subst e2; exact absurd hst id
      | cons s ss =>
        simp only [List.map_cons] at e2
        subst e2
        have e : l1 = { l with ss := ss ++ tail } := by
          simp only [Lx.step, Lx.discardState, e1, List.cons_append, Option.some.injEq] at h1
          exact h1.symm
        obtain ⟨k1, k2⟩ := ih l1 l' (ss.map (·.mode.len)) tail (by rw [e]; exact ha)
          (by rw [e]; exact hlen)
          (fun n hn => hsv n (by simp only [List.mem_cons]; exact .inr hn)) ⟨ss, by rw [e], rfl⟩
          (by rw [e]; exact hst) h2
        exact ⟨fun j hj => (k1 j hj).trans (by rw [e]), k2⟩

/-- **C06.** Full statement: after `PushState`, any balanced activity and `PopState`, the mode
stack with all flags and the fields copied by value are as before.  Proved for activity that
pops, flags or counts only modes pushed after `PushState`; the states saved before are
untouched too.  The missing case is violated: `rewind_flag_violated`,
`rewind_repush_violated`. -/
theorem rewind_partial (grow : Nat → Nat) {l l1 l2 : Lx R} (h : MInv l) (ops : List (ModeOp R))
    (hst : staysAbove l.state.mode.len l.state.mode.len [] ops)
    (hr : l.pushState.run grow ops = some l1) (hp : l1.popState = some l2) :
    modes l2 = modes l ∧ l2.state.rest = l.state.rest ∧ l2.ss = l.ss := by
  obtain ⟨k1, k2⟩ := run_keeps grow l.state.mode.len l.state.mode.arr h.cur.1 ops l.pushState l1 []
    (l.state :: l.ss) h.cur.2.2 (Nat.le_refl _) (by simp) ⟨[], rfl, rfl⟩ hst hr
  simp only [Lx.popState, k2, Option.some.injEq] at hp
  subst hp
  refine ⟨?_, rfl, rfl⟩
  simp only [modes]
  apply List.map_congr_left
  intro i hi
  exact k1 i (by simpa using hi)

/-- Two modes deep, with a nested save and flags on new modes. -/
example :
    let ops : List (ModeOp Nat) := [.pushMode LM_TEMPLATE true, .addMode LM_STRICT, .pushState,
      .pushMode LM_JSX false, .setRest 7, .popState, .popMode]
    staysAbove 1 1 [] ops ∧ ((Lx.new 3).pushState.run (fun n => n) ops).isSome = true := by
  refine ⟨by simp [staysAbove], by decide⟩

/-- **C06 is violated**: a flag added to the current mode after `PushState` survives
`PopState`. -/
theorem rewind_flag_violated :
    ((Lx.new ()).run (fun n => n) [.pushState, .addMode LM_STRICT, .popState]).map modes =
      some [⟨LM_STRICT, 0⟩] := by decide

/-- **C06 is violated**: leaving the saved mode and entering another one in its place
overwrites it in the saved state. -/
theorem rewind_repush_violated :
    ((Lx.new ()).run (fun n => n) [.pushMode LM_ASYNC false, .pushState, .popMode,
      .pushMode LM_JSX false, .popState]).map modes = some [⟨0, 0⟩, ⟨LM_JSX, 0⟩] := by decide

end Mole.Lexer
