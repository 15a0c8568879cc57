import Verif.Conc.ParseCache

/-! # Properties of the parse cache (C46) -/

namespace Mole.Conc.Cache

/-- **C46, right results**.  Whatever a caller receives from the channel Parse gave it for a key is a result of parsing that key. -/
theorem received_sound (Result : Nat → Res → Prop) (s : St) (h : Reachable Result s) (k id : Nat) (r : Res)
    (hr : (k, id, r) ∈ s.received) : Result k r := (inv h).received _ hr

theorem job_uses {Result : Nat → Res → Prop} {s : St} (h : Reachable Result s) {j : Job} (hj : j ∈ s.jobs) :
    s.chan j.id = none ∧ (s.received.map (fun x => x.2.1)).count j.id = 0 ∧ (s.calls.map Prod.snd).count j.id = 0 := by
  have h1 : 0 < (s.jobs.map Job.id).count j.id := List.count_pos_iff.mpr (List.mem_map.mpr ⟨j, hj, rfl⟩)
  have h2 := (inv h).once j.id
  simp only [uses] at h2
  have h3 : full (s.chan j.id) = 0 := by split at h2 <;> omega
  refine ⟨?_, ?_, ?_⟩
  · cases hc : s.chan j.id with
    | none => rfl
    | some x => rw [hc, full] at h3; cases h3
  · split at h2 <;> omega
  · split at h2 <;> omega

/-- **C46, the parsing goroutine**.  It never blocks on the channel. -/
theorem send_never_blocks (Result : Nat → Res → Prop) (s : St) (h : Reachable Result s) (j : Job) (hj : j ∈ s.jobs) :
    s.chan j.id = none := (job_uses h hj).1

/-- Each channel delivers at most one value. -/
theorem one_value (Result : Nat → Res → Prop) (s : St) (h : Reachable Result s) (id : Nat) :
    (s.received.map (fun x => x.2.1)).count id ≤ 1 := by
  have h2 := (inv h).once id
  simp only [uses] at h2
  split at h2 <;> omega

/-- Channels that have been returned are not those of calls still under way. -/
theorem returned_calls {Result : Nat → Res → Prop} {s : St} (h : Reachable Result s) :
    (∀ x ∈ s.returned, (s.calls.map Prod.snd).count x.2 = 0) ∧ (∀ k id, s.store k = .future id → (s.calls.map Prod.snd).count id = 0) := by
  induction h with
  | refl => simp
  | step hr st ih =>
    rename_i t u
    obtain ⟨h1, h2⟩ := ih
    have i := inv hr
    cases st with
    | first k hf =>
      obtain ⟨key, _, _, k3, _, k5⟩ := i.key
      constructor
      · intro x hx
        have := h1 x hx
        have hn : (t.next == x.2) = false := by have := (k3 x hx).2; simp; omega
        simp only [List.map_cons, List.count_cons, hn]
        simpa using this
      · intro k' id hk
        have := h2 k' id hk
        have hn : (t.next == id) = false := by have := (k5 k' id hk).2; simp; omega
        simp only [List.map_cons, List.count_cons, hn]
        simpa using this
    | pending k id hf =>
      refine ⟨fun x hx => ?_, h2⟩
      rcases List.mem_cons.mp hx with rfl | hx
      · exact h2 k id hf
      · exact h1 x hx
    | known k v hf =>
      refine ⟨fun x hx => ?_, h2⟩
      rcases List.mem_cons.mp hx with rfl | hx
      · have := i.once t.next
        simp only [uses, Nat.lt_irrefl, if_false] at this
        show (t.calls.map Prod.snd).count t.next = 0
        omega
      · exact h1 x hx
    | panic k v hf => exact ⟨h1, h2⟩
    | begin l r k id hc =>
      have hz : ((l ++ r).map Prod.snd).count id = 0 := by
        have := i.once id
        simp only [uses, hc] at this
        simp only [List.map_append, List.map_cons, List.count_append, List.count_cons, beq_self_eq_true, if_true] at this ⊢
        split at this <;> omega
      have sub : ∀ x, (t.calls.map Prod.snd).count x = 0 → ((l ++ r).map Prod.snd).count x = 0 := by
        intro x hx
        rw [hc] at hx
        simp only [List.map_append, List.map_cons, List.count_append, List.count_cons] at hx ⊢
        omega
      constructor
      · intro x hx
        rcases List.mem_cons.mp hx with rfl | hx
        · exact hz
        · exact sub _ (h1 x hx)
      · intro k' x hx
        by_cases e : k' = k
        · subst e; simp only [update_self] at hx; cases hx; exact hz
        · simp only [update_ne _ _ _ e] at hx; exact sub _ (h2 k' x hx)
    | parse l r k id x hj hx => exact ⟨h1, h2⟩
    | save l r k id x hj =>
      refine ⟨h1, fun k' i' hi => ?_⟩
      by_cases e : k' = k
      · subst e; simp only [update_self] at hi; cases hi
      · simp only [update_ne _ _ _ e] at hi; exact h2 k' i' hi
    | send l r k id x hj hc => exact ⟨h1, h2⟩
    | recv k id x hm hc => exact ⟨h1, h2⟩

/-- **C46, delivery** (partial: for one caller per channel, see `two_waiters_violated`).  If parsing always gives some result, a
channel Parse has returned and from which nothing has been received yet has a value, or the parsing goroutine puts one into it
without waiting for anything else. -/
theorem value_arrives_partial (Result : Nat → Res → Prop) (hp : ∀ k, ∃ r, Result k r) (s : St) (h : Reachable Result s) (k id : Nat)
    (hr : (k, id) ∈ s.returned) (hn : id ∉ s.received.map (fun x => x.2.1)) :
    ∃ s' r, Steps Result s s' ∧ s'.chan id = some r ∧ Result k r := by
  have i := inv h
  obtain ⟨key, _, hk2, k3, k4, _⟩ := i.key
  obtain ⟨hk, hlt⟩ := k3 _ hr
  simp only at hk hlt
  have h2 := i.once id
  rw [if_pos hlt] at h2
  simp only [uses] at h2
  have h3 := (returned_calls h).1 _ hr
  simp only at h3
  have h4 : (s.received.map (fun x => x.2.1)).count id = 0 := List.count_eq_zero.mpr hn
  cases hc : s.chan id with
  | some x => exact ⟨s, x, .refl, hc, hk ▸ k4 id x hc⟩
  | none =>
    rw [hc, full] at h2
    have h5 : 0 < (s.jobs.map Job.id).count id := by omega
    obtain ⟨j, hj, hji⟩ := List.mem_map.mp (List.count_pos_iff.mp h5)
    obtain ⟨l, r, hlr⟩ := List.append_of_mem hj
    have hjk : j.key = k := by rw [← hk, ← hji, hk2 j hj]
    obtain ⟨jk, ji, stage⟩ := j
    simp only at hji hjk
    subst hji hjk
    have send : ∀ (t : St) (l r : List Job) (x : Res), t.chan ji = none → t.jobs = l ++ ⟨jk, ji, .sending x⟩ :: r →
        ∃ t', Step Result t t' ∧ t'.chan ji = some x := fun t l r x hn hj => ⟨_, Step.send t l r jk ji x hj hn, update_self ..⟩
    have save : ∀ (t : St) (l r : List Job) (x : Res), t.chan ji = none → t.jobs = l ++ ⟨jk, ji, .storing x⟩ :: r →
        ∃ t', Steps Result t t' ∧ t'.chan ji = some x := by
      intro t l r x hn hj
      obtain ⟨t', h1, h2⟩ := send { t with jobs := l ++ ⟨jk, ji, .sending x⟩ :: r, store := update t.store jk (.done x) } l r x hn rfl
      exact ⟨t', .step (.step .refl (Step.save t l r jk ji x hj)) h1, h2⟩
    cases stage with
    | sending x =>
      obtain ⟨t, h1, h2⟩ := send s l r x hc hlr
      exact ⟨t, x, .step .refl h1, h2, i.job _ hj x rfl⟩
    | storing x =>
      obtain ⟨t, h1, h2⟩ := save s l r x hc hlr
      exact ⟨t, x, h1, h2, i.job _ hj x rfl⟩
    | parsing =>
      obtain ⟨x, hx⟩ := hp jk
      obtain ⟨t, h1, h2⟩ := save { s with jobs := l ++ ⟨jk, ji, .storing x⟩ :: r, parses := jk :: s.parses } l r x hc rfl
      exact ⟨t, x, Steps.trans (.step .refl (Step.parse s l r jk ji x hlr hx)) h1, h2, hx⟩

/-- **C46, panics** (partial: for parsers whose results are of type `*Parsed` or nil, see `known_panics_violated`).  No call
panics. -/
theorem no_panic_partial (Result : Nat → Res → Prop) (hp : ∀ k v, ¬ Result k (.other v)) (s : St) (h : Reachable Result s) :
    s.panicked = false := by
  induction h with
  | refl => rfl
  | step hr st ih =>
    cases st with
    | panic k v hf => exact absurd ((inv hr).store k _ hf) (hp k v)
    | _ => exact ih

/-- The states reached while of each key at most one call at a time is between looking it up (line 43) and storing its future
(line 58). -/
inductive Orderly (Result : Nat → Res → Prop) : St → Prop
  | init : Orderly Result {}
  | step {s s' : St} : Orderly Result s → Step Result s s' → (s'.calls.map Prod.fst).Nodup → Orderly Result s'

theorem Orderly.reachable {Result : Nat → Res → Prop} {s : St} (h : Orderly Result s) : Reachable Result s := by
  induction h with
  | init => exact .refl
  | step _ st _ ih => exact .step ih st

/-- The keys being parsed. -/
def parsing (l : List Job) (k : Nat) : Nat := l.countP fun j => j.key == k && j.stage == .parsing

theorem once_inv {Result : Nat → Res → Prop} (hp : ∀ k, ¬ Result k .nil) {s : St} (h : Orderly Result s) (k : Nat) :
    s.parses.count k + (s.calls.map Prod.fst).count k + parsing s.jobs k ≤ 1 ∧
      ((s.store k).first = true → s.parses.count k + parsing s.jobs k = 0) := by
  induction h with
  | init => simp [parsing]
  | step hr st hn ih =>
    rename_i t u
    obtain ⟨h1, h2⟩ := ih
    have i := inv hr.reachable
    cases st with
    | first k' hf =>
      refine ⟨?_, h2⟩
      by_cases e : k' = k
      · subst e
        have := h2 hf
        have := List.nodup_iff_count.mp hn k'
        simp only at this ⊢
        omega
      · have e' : (k' == k) = false := by simp [e]
        simp only [List.map_cons, List.count_cons, e']
        simpa using h1
    | pending k' id hf => exact ⟨h1, h2⟩
    | known k' v hf => exact ⟨h1, h2⟩
    | panic k' v hf => exact ⟨h1, h2⟩
    | begin l r k' id hc =>
      rw [hc] at h1
      simp only [List.map_append, List.map_cons, List.count_append, List.count_cons] at h1
      constructor
      · simp only [List.map_append, List.count_append, parsing, List.countP_cons] at h1 ⊢
        by_cases e : k' = k
        · simp only [e, beq_self_eq_true, Bool.and_self, if_true] at h1 ⊢; omega
        · simp only [beq_false_of_ne e, Bool.false_and, Bool.false_eq_true, if_false] at h1 ⊢; omega
      · intro hf
        by_cases e : k = k'
        · subst e; simp only [update_self] at hf; cases hf
        · simp only [update_ne _ _ _ e] at hf
          have := h2 hf
          have e2 : k' ≠ k := fun h => e h.symm
          simp only [parsing, List.countP_cons, beq_false_of_ne e2, Bool.false_and, Bool.false_eq_true, if_false] at this ⊢
          omega
    | parse l r k' id x hj hx =>
      have hs : ∀ (y : Stage), (y == Stage.parsing) = decide (y = .parsing) := fun _ => rfl
      have hsum : (k' :: t.parses).count k + parsing (l ++ ⟨k', id, .storing x⟩ :: r) k = t.parses.count k + parsing t.jobs k := by
        rw [hj]
        simp only [parsing, List.countP_append, List.countP_cons, List.count_cons, hs]
        by_cases e : k' = k
        · simp [e]; omega
        · simp [e]
      exact ⟨by show (k' :: t.parses).count k + (t.calls.map Prod.fst).count k + parsing (l ++ ⟨k', id, .storing x⟩ :: r) k ≤ 1; omega, fun hf => by
        show (k' :: t.parses).count k + parsing (l ++ ⟨k', id, .storing x⟩ :: r) k = 0
        rw [hsum]; exact h2 hf⟩
    | save l r k' id x hj =>
      have hs : ∀ (y : Stage), (y == Stage.parsing) = decide (y = .parsing) := fun _ => rfl
      have hsum : parsing (l ++ ⟨k', id, .sending x⟩ :: r) k = parsing t.jobs k := by
        rw [hj]; simp [parsing, List.countP_append, List.countP_cons, hs]
      refine ⟨by show _ + _ + parsing (l ++ ⟨k', id, .sending x⟩ :: r) k ≤ 1; rw [hsum]; exact h1, fun hf => ?_⟩
      show t.parses.count k + parsing (l ++ ⟨k', id, .sending x⟩ :: r) k = 0
      rw [hsum]
      by_cases e : k = k'
      · subst e
        simp only [update_self] at hf
        have := i.job ⟨k, id, .storing x⟩ (by rw [hj]; simp) x rfl
        cases x with
        | nil => exact absurd this (hp k)
        | ptr v => cases hf
        | other v => cases hf
      · simp only [update_ne _ _ _ e] at hf
        exact h2 hf
    | send l r k' id x hj hc =>
      have hs : ∀ (y : Stage), (y == Stage.parsing) = decide (y = .parsing) := fun _ => rfl
      have hsum : parsing (l ++ r) k = parsing t.jobs k := by
        rw [hj]; simp [parsing, List.countP_append, List.countP_cons, hs]
      exact ⟨by show _ + _ + parsing (l ++ r) k ≤ 1; rw [hsum]; exact h1, fun hf => by
        show t.parses.count k + parsing (l ++ r) k = 0; rw [hsum]; exact h2 hf⟩
    | recv k' id x hm hc => exact ⟨h1, h2⟩

/-- **C46, sharing** (partial: for executions in which no two calls for one key are between their look-up and their store at
the same time, and results are not nil, see `double_parse_violated` and `nil_parse_violated`).  A key is parsed at most once. -/
theorem parse_once_partial (Result : Nat → Res → Prop) (hp : ∀ k, ¬ Result k .nil) (s : St) (h : Orderly Result s) (k : Nat) :
    s.parses.count k ≤ 1 := by
  have := (once_inv hp h k).1
  omega

/-! ## Non-vacuity and violations -/

/-- Parsing key 7 gives a pointer. -/
def isPtr : Nat → Res → Prop := fun _ r => r = .ptr 1

/-- One call, its parse and its result. -/
theorem one_call (r : Res) : ∃ s, Orderly (fun _ x => x = r) s ∧ s.store 7 = .done r ∧ s.received = [(7, 0, r)] ∧ s.jobs = [] ∧ s.calls = [] ∧
    s.parses = [7] ∧ s.chan 0 = none ∧ s.next = 1 ∧ s.returned = [(7, 0)] ∧ s.panicked = false := by
  have h0 := Orderly.init (Result := fun _ x => x = r)
  have h1 := Orderly.step h0 (Step.first _ 7 rfl) (by simp)
  have h2 := Orderly.step h1 (Step.begin _ [] [] 7 0 rfl) (by simp)
  have h3 := Orderly.step h2 (Step.parse _ [] [] 7 0 r rfl rfl) (by simp)
  have h4 := Orderly.step h3 (Step.save _ [] [] 7 0 r rfl) (by simp)
  have h5 := Orderly.step h4 (Step.send _ [] [] 7 0 r rfl rfl) (by simp)
  have h6 := Orderly.step h5 (Step.recv _ 7 0 r (by simp) (by simp [update])) (by simp)
  exact ⟨_, h6, by simp [update], rfl, rfl, rfl, rfl, by simp [update], rfl, rfl, rfl⟩

example : (∀ k, ∃ r, isPtr k r) ∧ (∀ k v, ¬ isPtr k (.other v)) ∧ (∀ k, ¬ isPtr k .nil) ∧
    ∃ s, Orderly isPtr s ∧ s.received = [(7, 0, .ptr 1)] := by
  refine ⟨fun k => ⟨_, rfl⟩, by simp [isPtr], by simp [isPtr], ?_⟩
  obtain ⟨s, h, _, h2, _⟩ := one_call (.ptr 1)
  exact ⟨s, h, h2⟩

/-- **C46 is violated** by results of other types than `*Parsed`: a call for a key that has been parsed panics. -/
theorem known_panics_violated : ∃ s, Orderly (fun _ x => x = .other 1) s ∧ s.panicked = true := by
  obtain ⟨s, h, h1, _, _, h4, _⟩ := one_call (.other 1)
  exact ⟨_, Orderly.step h (Step.panic s 7 1 h1) (by simp [h4]), rfl⟩

/-- **C46 is violated** for two callers that share a future: one has received the value, and the other never will. -/
theorem two_waiters_violated : ∃ s, Orderly isPtr s ∧ s.returned = [(7, 0), (7, 0)] ∧ s.received = [(7, 0, .ptr 1)] ∧
    ∀ s', Steps isPtr s s' → s'.chan 0 = none := by
  have h0 := Orderly.init (Result := isPtr)
  have h1 := Orderly.step h0 (Step.first _ 7 rfl) (by simp)
  have h2 := Orderly.step h1 (Step.begin _ [] [] 7 0 rfl) (by simp)
  have h3 := Orderly.step h2 (Step.pending _ 7 0 (by simp [update])) (by simp)
  have h4 := Orderly.step h3 (Step.parse _ [] [] 7 0 (.ptr 1) rfl rfl) (by simp)
  have h5 := Orderly.step h4 (Step.save _ [] [] 7 0 (.ptr 1) rfl) (by simp)
  have h6 := Orderly.step h5 (Step.send _ [] [] 7 0 (.ptr 1) rfl rfl) (by simp)
  have h7 := Orderly.step h6 (Step.recv _ 7 0 (.ptr 1) (by simp) (by simp [update])) (by simp)
  refine ⟨_, h7, rfl, rfl, fun s' hs => ?_⟩
  have hr := Steps.trans h7.reachable hs
  have hk : (7, 0, .ptr 1) ∈ s'.received := by
    clear hr
    induction hs with
    | refl => simp
    | step _ st ih =>
      cases st with
      | recv k id x hm hc => exact List.mem_cons_of_mem _ ih
      | _ => exact ih
  have hpos : 0 < (s'.received.map (fun x => x.2.1)).count 0 := List.count_pos_iff.mpr (List.mem_map.mpr ⟨_, hk, rfl⟩)
  have hu := (inv hr).once 0
  simp only [uses] at hu
  cases hc : s'.chan 0 with
  | none => rfl
  | some x => rw [hc, full] at hu; split at hu <;> omega

/-- **C46 is violated** by two calls that look the key up before either stores its future: both parse. -/
theorem double_parse_violated : ∃ s, Reachable isPtr s ∧ s.parses = [7, 7] := by
  have h0 : Reachable isPtr {} := .refl
  have h1 := Steps.step h0 (Step.first _ 7 rfl)
  have h2 := Steps.step h1 (Step.first _ 7 rfl)
  have h3 := Steps.step h2 (Step.begin _ [] [(7, 0)] 7 1 rfl)
  have h4 := Steps.step h3 (Step.begin _ [] [] 7 0 rfl)
  have h5 := Steps.step h4 (Step.parse _ [] [⟨7, 1, .parsing⟩] 7 0 (.ptr 1) rfl rfl)
  exact ⟨_, Steps.step h5 (Step.parse _ [⟨7, 0, .storing (.ptr 1)⟩] [] 7 1 (.ptr 1) rfl rfl), rfl⟩

/-- **C46 is violated** by a nil result, which counts as none: the key is parsed again. -/
theorem nil_parse_violated : ∃ s, Orderly (fun _ x => x = .nil) s ∧ s.parses = [7, 7] := by
  obtain ⟨s, h, h1, _, h3, h4, h5, _⟩ := one_call .nil
  have g1 := Orderly.step h (Step.first s 7 (by rw [h1]; rfl)) (by simp [h4])
  have g2 := Orderly.step g1 (Step.begin _ [] s.calls 7 s.next rfl) (by simp [h4])
  have g3 := Orderly.step g2 (Step.parse _ [] s.jobs 7 s.next .nil rfl rfl) (by simp [h4])
  exact ⟨_, g3, by simp [h5]⟩

end Mole.Conc.Cache
