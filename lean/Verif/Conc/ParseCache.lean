/-! # The parse cache (C46): model of parseutil/cache.go

Goroutines as a state machine; every mutex section and every channel operation is one step.  Simplified: one parser; the
file, the code and the other arguments of Parse are part of the key's parse result, which may differ between parses. -/

namespace Mole.Conc.Cache

/-- What a parser returns (cache.go 13, 18: `Parsed` is any value), by what the type switch on lines 46-72 makes of it when
it finds it in the store.  A result that is itself a channel is left out. -/
inductive Res where
  | nil
  /-- a `*Parsed` -/
  | ptr (v : Nat)
  | other (v : Nat)
deriving DecidableEq

/-- An entry of the store (cache.go 24): nothing, a future, or a result. -/
inductive Cell where
  | absent
  | future (id : Nat)
  | done (r : Res)

/-- A goroutine of cache.go 60-68. -/
inductive Stage where
  | parsing
  | storing (r : Res)
  | sending (r : Res)
deriving DecidableEq

structure Job where
  key : Nat
  id : Nat
  stage : Stage

/-- The state of a cache and its users; channels are numbered by creation. -/
structure St where
  store : Nat → Cell := fun _ => .absent
  /-- the content of each channel, of capacity one (cache.go 51, 56) -/
  chan : Nat → Option Res := fun _ => none
  next : Nat := 0
  /-- calls of Parse between lines 44 and 57, with their key and channel -/
  calls : List (Nat × Nat) := []
  jobs : List Job := []
  /-- keys and channels returned to callers -/
  returned : List (Nat × Nat) := []
  /-- keys, channels and values callers have received -/
  received : List (Nat × Nat × Res) := []
  /-- the keys parsed so far -/
  parses : List Nat := []
  /-- a call has reached line 73 -/
  panicked : Bool := false

def update {α : Type} (f : Nat → α) (k : Nat) (v : α) : Nat → α := fun x => if x = k then v else f x

/-- Whether the type switch takes the `nil` case (cache.go 55). -/
def Cell.first : Cell → Bool
  | .absent | .done .nil => true
  | _ => false

/-- The steps; `Result k r` says that parsing `k` may give `r`. -/
inductive Step (Result : Nat → Res → Prop) : St → St → Prop
  /-- lines 42-44, 55-56: nothing is known about the key -/
  | first (s : St) (k : Nat) : (s.store k).first = true →
      Step Result s { s with calls := (k, s.next) :: s.calls, next := s.next + 1 }
  /-- lines 47-48: a parse is under way -/
  | pending (s : St) (k id : Nat) : s.store k = .future id → Step Result s { s with returned := (k, id) :: s.returned }
  /-- lines 50-53: the result is known -/
  | known (s : St) (k v : Nat) : s.store k = .done (.ptr v) →
      Step Result s { s with chan := update s.chan s.next (some (.ptr v)), next := s.next + 1, returned := (k, s.next) :: s.returned }
  /-- line 73 -/
  | panic (s : St) (k v : Nat) : s.store k = .done (.other v) → Step Result s { s with panicked := true }
  /-- lines 57-60, 71: the future is stored, the goroutine started, the future returned -/
  | begin (s : St) (l r : List (Nat × Nat)) (k id : Nat) : s.calls = l ++ (k, id) :: r →
      Step Result s { s with
        calls := l ++ r, store := update s.store k (.future id), jobs := ⟨k, id, .parsing⟩ :: s.jobs, returned := (k, id) :: s.returned }
  /-- line 61 -/
  | parse (s : St) (l r : List Job) (k id : Nat) (x : Res) : s.jobs = l ++ ⟨k, id, .parsing⟩ :: r → Result k x →
      Step Result s { s with jobs := l ++ ⟨k, id, .storing x⟩ :: r, parses := k :: s.parses }
  /-- lines 63-65 -/
  | save (s : St) (l r : List Job) (k id : Nat) (x : Res) : s.jobs = l ++ ⟨k, id, .storing x⟩ :: r →
      Step Result s { s with jobs := l ++ ⟨k, id, .sending x⟩ :: r, store := update s.store k (.done x) }
  /-- line 67 -/
  | send (s : St) (l r : List Job) (k id : Nat) (x : Res) : s.jobs = l ++ ⟨k, id, .sending x⟩ :: r → s.chan id = none →
      Step Result s { s with jobs := l ++ r, chan := update s.chan id (some x) }
  /-- a caller receives from the channel it was given -/
  | recv (s : St) (k id : Nat) (x : Res) : (k, id) ∈ s.returned → s.chan id = some x →
      Step Result s { s with chan := update s.chan id none, received := (k, id, x) :: s.received }

/-- The states reachable from `s` under any schedule. -/
inductive Steps (Result : Nat → Res → Prop) (s : St) : St → Prop
  | refl : Steps Result s s
  | step {t u : St} : Steps Result s t → Step Result t u → Steps Result s u

/-- cache.go 28-34 (NewParseCache) and any calls afterwards. -/
def Reachable (Result : Nat → Res → Prop) (s : St) : Prop := Steps Result {} s

/-! ## Invariants -/

/-- The number of values in a channel. -/
def full : Option Res → Nat
  | some _ => 1
  | none => 0

/-- How often a channel is mentioned: by calls, by goroutines, by its content and by values received from it. -/
def uses (s : St) (id : Nat) : Nat :=
  (s.calls.map Prod.snd).count id + (s.jobs.map Job.id).count id + full (s.chan id) +
    (s.received.map (fun x => x.2.1)).count id

/-- The result a goroutine has. -/
def Stage.result : Stage → Option Res
  | .parsing => none
  | .storing r | .sending r => some r

structure Inv (Result : Nat → Res → Prop) (s : St) : Prop where
  once : ∀ id, uses s id = (if id < s.next then 1 else 0)
  job : ∀ j ∈ s.jobs, ∀ r, j.stage.result = some r → Result j.key r
  store : ∀ k r, s.store k = .done r → Result k r
  key : ∃ key : Nat → Nat, (∀ x ∈ s.calls, key x.2 = x.1) ∧ (∀ j ∈ s.jobs, key j.id = j.key) ∧ (∀ x ∈ s.returned, key x.2 = x.1 ∧ x.2 < s.next) ∧
    (∀ id r, s.chan id = some r → Result (key id) r) ∧ (∀ k id, s.store k = .future id → key id = k ∧ id < s.next)
  received : ∀ x ∈ s.received, Result x.1 x.2.2

theorem update_self {α : Type} (f : Nat → α) (k : Nat) (v : α) : update f k v k = v := if_pos rfl

theorem update_ne {α : Type} (f : Nat → α) (k : Nat) (v : α) {x : Nat} (h : x ≠ k) : update f k v x = f x := if_neg h

theorem lt_of_uses {Result : Nat → Res → Prop} {s : St} (h : Inv Result s) {id : Nat} (hu : 0 < uses s id) : id < s.next := by
  have := h.once id
  by_cases hlt : id < s.next
  · exact hlt
  · rw [if_neg hlt] at this; omega

theorem inv_init (Result : Nat → Res → Prop) : Inv Result {} := by
  refine ⟨fun id => by simp [uses, full], by simp, by simp, ⟨fun _ => 0, by simp⟩, by simp⟩

theorem inv_step {Result : Nat → Res → Prop} {s s' : St} (h : Inv Result s) (st : Step Result s s') : Inv Result s' := by
  have hlt := fun id => lt_of_uses (id := id) h
  obtain ⟨h1, h2, h3, ⟨key, k1, k2, k3, k4, k5⟩, h5⟩ := h
  cases st with
  | first k hf =>
    have hz : uses s s.next = 0 := by rw [h1]; simp
    refine ⟨fun id => ?_, h2, h3, ⟨update key s.next k, ?_, ?_, ?_, ?_, ?_⟩, h5⟩
    · have := h1 id
      simp only [uses, List.map_cons, List.count_cons] at this hz ⊢
      by_cases hid : id = s.next
      · subst hid; rw [if_pos (Nat.lt_succ_self _)]; simp only [beq_self_eq_true, if_true]; omega
      · have e : (s.next == id) = false := by simp; omega
        rw [e]
        simp only [Bool.false_eq_true, if_false]
        by_cases hl : id < s.next
        · rw [if_pos hl] at this; rw [if_pos (Nat.lt_succ_of_lt hl)]; omega
        · rw [if_neg hl] at this; rw [if_neg (by omega)]; omega
    · intro x hx
      rcases List.mem_cons.mp hx with rfl | hx
      · exact update_self ..
      · rw [update_ne _ _ _ (Nat.ne_of_lt (hlt x.2 ?_))]
        · exact k1 x hx
        · have : 0 < (s.calls.map Prod.snd).count x.2 := List.count_pos_iff.mpr (List.mem_map.mpr ⟨x, hx, rfl⟩)
          simp only [uses]; omega
    · intro j hj
      rw [update_ne _ _ _ (Nat.ne_of_lt (hlt j.id ?_))]
      · exact k2 j hj
      · have : 0 < (s.jobs.map Job.id).count j.id := List.count_pos_iff.mpr (List.mem_map.mpr ⟨j, hj, rfl⟩)
        simp only [uses]; omega
    · intro x hx
      obtain ⟨a, b⟩ := k3 x hx
      exact ⟨by rw [update_ne _ _ _ (Nat.ne_of_lt b)]; exact a, Nat.lt_succ_of_lt b⟩
    · intro id r hc
      have hc' : s.chan id = some r := hc
      rw [update_ne _ _ _ (Nat.ne_of_lt (hlt id (by simp only [uses, hc', full]; omega)))]
      exact k4 id r hc
    · intro k' id hk
      obtain ⟨a, b⟩ := k5 k' id hk
      exact ⟨by rw [update_ne _ _ _ (Nat.ne_of_lt b)]; exact a, Nat.lt_succ_of_lt b⟩
  | pending k id hf =>
    refine ⟨h1, h2, h3, ⟨key, k1, k2, ?_, k4, k5⟩, h5⟩
    intro x hx
    rcases List.mem_cons.mp hx with rfl | hx
    · exact k5 k id hf
    · exact k3 x hx
  | known k v hf =>
    have hz : uses s s.next = 0 := by rw [h1]; simp
    refine ⟨fun id => ?_, h2, h3, ⟨update key s.next k, ?_, ?_, ?_, ?_, ?_⟩, h5⟩
    · have := h1 id
      simp only [uses] at this hz ⊢
      by_cases hid : id = s.next
      · subst hid; rw [update_self, if_pos (Nat.lt_succ_self _), full]; omega
      · rw [update_ne _ _ _ hid]
        by_cases hl : id < s.next
        · rw [if_pos hl] at this; rw [if_pos (Nat.lt_succ_of_lt hl)]; exact this
        · rw [if_neg hl] at this; rw [if_neg (by omega)]; exact this
    · intro x hx
      rw [update_ne _ _ _ (Nat.ne_of_lt (hlt x.2 ?_))]
      · exact k1 x hx
      · have : 0 < (s.calls.map Prod.snd).count x.2 := List.count_pos_iff.mpr (List.mem_map.mpr ⟨x, hx, rfl⟩)
        simp only [uses]; omega
    · intro j hj
      rw [update_ne _ _ _ (Nat.ne_of_lt (hlt j.id ?_))]
      · exact k2 j hj
      · have : 0 < (s.jobs.map Job.id).count j.id := List.count_pos_iff.mpr (List.mem_map.mpr ⟨j, hj, rfl⟩)
        simp only [uses]; omega
    · intro x hx
      rcases List.mem_cons.mp hx with rfl | hx
      · exact ⟨update_self .., Nat.lt_succ_self _⟩
      · obtain ⟨a, b⟩ := k3 x hx
        exact ⟨by rw [update_ne _ _ _ (Nat.ne_of_lt b)]; exact a, Nat.lt_succ_of_lt b⟩
    · intro id r hc
      by_cases hid : id = s.next
      · subst hid
        simp only [update_self] at hc ⊢
        cases hc
        exact h3 k _ hf
      · simp only [update_ne _ _ _ hid] at hc ⊢
        exact k4 id r hc
    · intro k' id hk
      obtain ⟨a, b⟩ := k5 k' id hk
      exact ⟨by rw [update_ne _ _ _ (Nat.ne_of_lt b)]; exact a, Nat.lt_succ_of_lt b⟩
  | panic k v hf => exact ⟨h1, h2, h3, ⟨key, k1, k2, k3, k4, k5⟩, h5⟩
  | begin l r k id hc =>
    have hid : id < s.next := hlt id (by simp only [uses, hc]; simp; omega)
    have hk : key id = k := k1 (k, id) (by rw [hc]; simp)
    refine ⟨fun x => ?_, ?_, ?_, ⟨key, ?_, ?_, ?_, k4, ?_⟩, h5⟩
    · have := h1 x
      simp only [uses, hc] at this ⊢
      simp only [List.map_append, List.map_cons, List.count_append, List.count_cons] at this ⊢
      omega
    · intro j hj r' hr
      rcases List.mem_cons.mp hj with rfl | hj
      · cases hr
      · exact h2 j hj r' hr
    · intro k' r' hr
      by_cases e : k' = k
      · subst e; simp only [update_self] at hr; cases hr
      · simp only [update_ne _ _ _ e] at hr; exact h3 k' r' hr
    · intro x hx
      exact k1 x (by rw [hc]; simp only [List.mem_append, List.mem_cons] at hx ⊢; exact hx.imp_right .inr)
    · intro j hj
      rcases List.mem_cons.mp hj with rfl | hj
      · exact hk
      · exact k2 j hj
    · intro x hx
      rcases List.mem_cons.mp hx with rfl | hx
      · exact ⟨hk, hid⟩
      · exact k3 x hx
    · intro k' i hi
      by_cases e : k' = k
      · subst e; simp only [update_self] at hi; cases hi; exact ⟨hk, hid⟩
      · simp only [update_ne _ _ _ e] at hi; exact k5 k' i hi
  | parse l r k id x hj hx =>
    rw [hj] at h2 k2
    refine ⟨fun i => ?_, ?_, h3, ⟨key, k1, ?_, k3, k4, k5⟩, h5⟩
    · have := h1 i
      simp only [uses, hj] at this ⊢
      simp only [List.map_append, List.map_cons] at this ⊢
      exact this
    · intro j hm r' hr
      simp only [List.mem_append, List.mem_cons] at hm h2
      rcases hm with hm | rfl | hm
      · exact h2 j (.inl hm) r' hr
      · cases hr; exact hx
      · exact h2 j (.inr (.inr hm)) r' hr
    · intro j hm
      simp only [List.mem_append, List.mem_cons] at hm k2
      rcases hm with hm | rfl | hm
      · exact k2 j (.inl hm)
      · exact k2 ⟨k, id, .parsing⟩ (.inr (.inl rfl))
      · exact k2 j (.inr (.inr hm))
  | save l r k id x hj =>
    rw [hj] at h2 k2
    have hx : Result k x := h2 ⟨k, id, .storing x⟩ (by simp) x rfl
    refine ⟨fun i => ?_, ?_, ?_, ⟨key, k1, ?_, k3, k4, ?_⟩, h5⟩
    · have := h1 i
      simp only [uses, hj] at this ⊢
      simp only [List.map_append, List.map_cons] at this ⊢
      exact this
    · intro j hm r' hr
      simp only [List.mem_append, List.mem_cons] at hm h2
      rcases hm with hm | rfl | hm
      · exact h2 j (.inl hm) r' hr
      · cases hr; exact hx
      · exact h2 j (.inr (.inr hm)) r' hr
    · intro k' r' hr
      by_cases e : k' = k
      · subst e; simp only [update_self] at hr; cases hr; exact hx
      · simp only [update_ne _ _ _ e] at hr; exact h3 k' r' hr
    · intro j hm
      simp only [List.mem_append, List.mem_cons] at hm k2
      rcases hm with hm | rfl | hm
      · exact k2 j (.inl hm)
      · exact k2 ⟨k, id, .storing x⟩ (.inr (.inl rfl))
      · exact k2 j (.inr (.inr hm))
    · intro k' i hi
      by_cases e : k' = k
      · subst e; simp only [update_self] at hi; cases hi
      · simp only [update_ne _ _ _ e] at hi; exact k5 k' i hi
  | send l r k id x hj hc =>
    rw [hj] at h2 k2
    have hx : Result k x := h2 ⟨k, id, .sending x⟩ (by simp) x rfl
    have hk : key id = k := k2 ⟨k, id, .sending x⟩ (by simp)
    have sub : ∀ j ∈ l ++ r, j ∈ l ++ ⟨k, id, .sending x⟩ :: r := by
      intro j hm
      simp only [List.mem_append, List.mem_cons] at hm ⊢
      exact hm.imp_right .inr
    refine ⟨fun i => ?_, fun j hm => h2 j (sub j hm), h3, ⟨key, k1, fun j hm => k2 j (sub j hm), k3, ?_, k5⟩, h5⟩
    · have := h1 i
      simp only [uses, hj] at this ⊢
      simp only [List.map_append, List.map_cons, List.count_append, List.count_cons] at this ⊢
      by_cases e : i = id
      · subst e
        rw [hc, full] at this
        rw [update_self, full]
        simp only [beq_self_eq_true, if_true] at this ⊢
        omega
      · rw [update_ne _ _ _ e]
        have e' : (id == i) = false := by simp; omega
        rw [e'] at this
        simp only [Bool.false_eq_true, if_false] at this
        omega
    · intro i r' hr
      by_cases e : i = id
      · subst e; simp only [update_self] at hr; cases hr; rw [hk]; exact hx
      · simp only [update_ne _ _ _ e] at hr; exact k4 i r' hr
  | recv k id x hm hc =>
    have hx := k4 id x hc
    rw [(k3 _ hm).1] at hx
    refine ⟨fun i => ?_, h2, h3, ⟨key, k1, k2, k3, ?_, k5⟩, ?_⟩
    · have := h1 i
      simp only [uses, List.map_cons, List.count_cons] at this ⊢
      by_cases e : i = id
      · subst e
        rw [hc, full] at this
        rw [update_self, full]
        simp only [beq_self_eq_true, if_true] at this ⊢
        omega
      · rw [update_ne _ _ _ e]
        have e' : (id == i) = false := by simp; omega
        rw [e']
        simp only [Bool.false_eq_true, if_false]
        omega
    · intro i r' hr
      by_cases e : i = id
      · subst e; simp only [update_self] at hr; cases hr
      · simp only [update_ne _ _ _ e] at hr; exact k4 i r' hr
    · intro y hy
      rcases List.mem_cons.mp hy with rfl | hy
      · exact hx
      · exact h5 y hy

theorem inv {Result : Nat → Res → Prop} {s : St} (h : Reachable Result s) : Inv Result s := by
  induction h with
  | refl => exact inv_init Result
  | step _ st ih => exact inv_step ih st

theorem Steps.trans {Result : Nat → Res → Prop} {s t u : St} (h1 : Steps Result s t) (h2 : Steps Result t u) : Steps Result s u := by
  induction h2 with
  | refl => exact h1
  | step _ st ih => exact .step ih st

end Mole.Conc.Cache
