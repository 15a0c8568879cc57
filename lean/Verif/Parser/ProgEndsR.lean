import Verif.Parser.ProgEndsSpec

/-! # How deep the calls of the parser are: rules for proofs (for C78) -/

namespace Mole.Parser.Prog

/-- Two functions end in the same way if `P`, and the first leaves less than `n` tokens. -/
def E (P : Prop) {α : Type} (m m' : M α) (s : S) (n : Nat) : Prop :=
  (P → m s = m' s) ∧ ∀ a s', m s = .ok a s' → s'.ts.length < n

section
variable {P : Prop} {α β : Type} {s : S} {n : Nat}

theorem e_bind {m m' : M α} {f f' : α → M β} (h1 : P → m s = m' s) (h2 : ∀ a s1, m s = .ok a s1 → E P (f a) (f' a) s1 n) :
    E P (m >>= f) (m' >>= f') s n := by
  constructor
  · intro hp
    change (match m s with | .ok a s' => f a s' | .err => .err | .panic => .panic | .noRets => .noRets) =
      (match m' s with | .ok a s' => f' a s' | .err => .err | .panic => .panic | .noRets => .noRets)
    rw [← h1 hp]
    cases hm : m s with
    | ok a s1 => exact (h2 a s1 hm).1 hp
    | err => rfl
    | panic => rfl
    | noRets => rfl
  · intro b s' e
    change (match m s with | .ok a s' => f a s' | .err => .err | .panic => .panic | .noRets => .noRets) = _ at e
    cases hm : m s with
    | ok a s1 => rw [hm] at e; exact (h2 a s1 hm).2 b s' e
    | err => rw [hm] at e; cases e
    | panic => rw [hm] at e; cases e
    | noRets => rw [hm] at e; cases e

theorem e_call {m m' : M α} {f f' : α → M β} {k : Nat} (h1 : E P m m' s k) (h2 : ∀ a s1, s1.ts.length < k → E P (f a) (f' a) s1 n) :
    E P (m >>= f) (m' >>= f') s n := e_bind h1.1 (fun a s1 e => h2 a s1 (h1.2 a s1 e))

theorem e_call2 {γ : Type} {m m' : M (α × γ)} {f f' : α × γ → M β} {k : Nat} (h1 : E P m m' s k)
    (h2 : ∀ a b s1, s1.ts.length < k → E P (f (a, b)) (f' (a, b)) s1 n) :
    E P (m >>= f) (m' >>= f') s n := e_call h1 (fun _ _ h => h2 _ _ _ h)

theorem e_last {m m' : M α} {k : Nat} (h1 : E P m m' s k) (h2 : k ≤ n) : E P m m' s n :=
  ⟨h1.1, fun a s' e => Nat.lt_of_lt_of_le (h1.2 a s' e) h2⟩

theorem e_pure {a : α} (h : s.ts.length < n) : E P (pure a : M α) (pure a) s n := by
  refine ⟨fun _ => rfl, ?_⟩
  intro b s' e
  cases e
  exact h

theorem e_fail : E P (fail : M α) fail s n := ⟨fun _ => rfl, nofun⟩

theorem e_ite {c : Prop} [Decidable c] {m m' k k' : M α} (h1 : c → E P m m' s n) (h2 : ¬c → E P k k' s n) :
    E P (if c then m else k) (if c then m' else k') s n := by
  split
  · exact h1 ‹_›
  · exact h2 ‹_›

theorem e_peek {f f' : K → M β} (h : E P (f (hd s.ts)) (f' (hd s.ts)) s n) : E P (peek >>= f) (peek >>= f') s n := h
theorem e_nl {f f' : Bool → M β} (h : E P (f (nlB s.ts)) (f' (nlB s.ts)) s n) : E P (nl >>= f) (nl >>= f') s n := h
theorem e_left {f f' : List Tok → M β} (h : E P (f s.ts) (f' s.ts) s n) : E P (left >>= f) (left >>= f') s n := h
theorem e_scope {f f' : Ctx → M β} (h : E P (f s.cur) (f' s.cur) s n) : E P (scope >>= f) (scope >>= f') s n := h
theorem e_scopeRef {f f' : Nat → M β} (h : ∀ d, E P (f d) (f' d) s n) : E P (scopeRef >>= f) (scopeRef >>= f') s n := h _

theorem tail_length {l : List Tok} (h : hd l ≠ .eof) : l.tail.length + 1 = l.length := by
  cases l with
  | nil => exact absurd rfl h
  | cons t l => rfl

theorem e_next {f f' : Unit → M β} (hk : hd s.ts ≠ .eof) (h : ∀ s1 : S, s1.ts.length + 1 = s.ts.length → E P (f ()) (f' ()) s1 n) :
    E P (next >>= f) (next >>= f') s n := h { s with ts := s.ts.tail } (tail_length hk)

theorem next_e : E P next next s (s.ts.length + 1) := by
  refine ⟨fun _ => rfl, ?_⟩
  intro _ s' e
  cases e
  simp only [List.length_tail]
  omega

theorem e_must {f f' : Unit → M β} {k : K} (hk : k ≠ .eof) (h : ∀ s1 : S, s1.ts.length + 1 = s.ts.length → E P (f ()) (f' ()) s1 n) :
    E P (must k >>= f) (must k >>= f') s n := by
  refine e_bind (fun _ => rfl) ?_
  intro _ s1 e
  unfold must at e
  by_cases hs : hd s.ts = k
  · simp only [hs, if_true] at e
    cases e
    exact h _ (tail_length (by rw [hs]; exact hk))
  · simp only [hs, if_false] at e
    cases e

theorem e_req {f f' : Unit → M β} {b : Bool} (h : b = true → E P (f ()) (f' ()) s n) : E P (req b >>= f) (req b >>= f') s n := by
  cases b with
  | true => exact h rfl
  | false => exact ⟨fun _ => rfl, nofun⟩

theorem e_chk {f f' : Unit → M β} {o : Chk} {i : Nat} {t : Node} (h : E P (f ()) (f' ()) s n) :
    E P (chk o i t >>= f) (chk o i t >>= f') s n := by
  refine e_bind (fun _ => rfl) ?_
  intro _ s1 e
  unfold chk at e
  split at e
  · cases e; exact h
  · cases e

theorem e_opening {f f' : Unit → M β} (h : E P (f ()) (f' ()) s n) : E P (opening >>= f) (opening >>= f') s n := by
  refine e_bind (fun _ => rfl) ?_
  intro _ s1 e
  unfold opening at e
  split at e
  · cases e; exact h
  · cases e

theorem e_semi {f f' : Unit → M β} {b : Bool} (h : ∀ s1 : S, s1.ts.length ≤ s.ts.length → E P (f ()) (f' ()) s1 n) :
    E P (semi b >>= f) (semi b >>= f') s n := by
  refine e_bind (fun _ => rfl) ?_
  intro _ s1 e
  unfold semi at e
  split at e
  · cases e
  · cases e
    apply h
    split
    · simp
    · exact Nat.le_refl _

theorem e_enter {f f' : Unit → M β} {g : Ctx → Ctx} (h : ∀ s1 : S, s1.ts.length = s.ts.length → hd s1.ts = hd s.ts → E P (f ()) (f' ()) s1 n) :
    E P (enter g >>= f) (enter g >>= f') s n := h _ rfl rfl
theorem e_enterFn {f f' : Unit → M β} {a b c : Bool} (h : ∀ s1 : S, s1.ts.length = s.ts.length → hd s1.ts = hd s.ts → E P (f ()) (f' ()) s1 n) :
    E P (enterFn a b c >>= f) (enterFn a b c >>= f') s n := h _ rfl rfl
theorem e_enterCls {f f' : Unit → M β} (h : ∀ s1 : S, s1.ts.length = s.ts.length → hd s1.ts = hd s.ts → E P (f ()) (f' ()) s1 n) :
    E P (enterCls >>= f) (enterCls >>= f') s n := h _ rfl rfl
theorem e_setKind {f f' : Unit → M β} {d : Nat} {g : Ctx → Ctx} (h : ∀ s1 : S, s1.ts.length = s.ts.length → hd s1.ts = hd s.ts → E P (f ()) (f' ()) s1 n) :
    E P (setKind d g >>= f) (setKind d g >>= f') s n := h _ rfl rfl
theorem e_pushLoop {f f' : Unit → M β} (h : ∀ s1 : S, s1.ts.length = s.ts.length → hd s1.ts = hd s.ts → E P (f ()) (f' ()) s1 n) :
    E P (pushLoop >>= f) (pushLoop >>= f') s n := h _ rfl rfl

theorem e_leave {f f' : Unit → M β} (h : ∀ s1 : S, s1.ts.length = s.ts.length → hd s1.ts = hd s.ts → E P (f ()) (f' ()) s1 n) : E P (leave >>= f) (leave >>= f') s n := by
  refine e_bind (fun _ => rfl) ?_
  intro _ s1 e
  unfold leave at e
  cases hs : s.up with
  | nil => rw [hs] at e; cases e
  | cons c l => rw [hs] at e; cases e; exact h _ rfl rfl

theorem e_popLoop {f f' : Unit → M β} (h : ∀ s1 : S, s1.ts.length = s.ts.length → hd s1.ts = hd s.ts → E P (f ()) (f' ()) s1 n) : E P (popLoop >>= f) (popLoop >>= f') s n := by
  refine e_bind (fun _ => rfl) ?_
  intro _ s1 e
  unfold popLoop at e
  split at e
  · cases e
  · cases e; exact h _ rfl rfl

theorem e_lastLoop {f f' : Unit → M β} (h : E P (f ()) (f' ()) s n) : E P (lastLoop >>= f) (lastLoop >>= f') s n := by
  refine e_bind (fun _ => rfl) ?_
  intro _ s1 e
  unfold lastLoop at e
  split at e
  · cases e
  · cases e; exact h

theorem e_pushRet {f f' : Unit → M β} (h : E P (f ()) (f' ()) s n) : E P (pushRet >>= f) (pushRet >>= f') s n := by
  refine e_bind (fun _ => rfl) ?_
  intro _ s1 e
  unfold pushRet at e
  split at e
  · cases e; exact h
  · cases e

theorem ite_eq_ok {c : Prop} [Decidable c] {s s1 : S} {a b : Unit} :
    (if c then Out.ok a s else Out.err) = Out.ok b s1 ↔ c ∧ s1 = s := by
  by_cases h : c <;> simp [h, eq_comm]

theorem e_forLeft {o : Chk} {t : Node} {f f' : Node → M β} (h : ∀ a, E P (f a) (f' a) s n) :
    E P (forLeft o t >>= f) (forLeft o t >>= f') s n := by
  refine e_bind (fun _ => rfl) ?_
  intro a s1 e
  have : s1 = s := by
    unfold forLeft at e
    split at e
    · cases e
    · simp only [bind, req, chk, pure] at e
      repeat' split at e
      all_goals cases e
      simp only [ite_eq_ok] at *
      simp_all
    · unfold target at e
      split at e
      · cases e; rfl
      · cases e
    · unfold target at e
      split at e
      · cases e; rfl
      · cases e
    · simp only [bind, req, chk, pure] at e
      repeat' split at e
      all_goals cases e
      simp only [ite_eq_ok] at *
      simp_all
  subst this
  exact h a

theorem target_e {o : Chk} {t : Node} : E P (target o t) (target o t) s (s.ts.length + 1) := by
  refine ⟨fun _ => rfl, ?_⟩
  intro a s' e
  unfold target at e
  split at e
  · cases e; exact Nat.lt_succ_self _
  · cases e

end

end Mole.Parser.Prog
