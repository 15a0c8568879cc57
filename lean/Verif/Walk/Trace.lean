import Verif.Walk.Lemmas

/-! The walker makes the calls of the specification. -/

namespace Mole.Walk

open Spec

variable {α σ : Type}

theorem self_nodes (t : Tree α) : t ∈ nodes t := by cases t; simp [nodes]

theorem self_spine (t : Tree α) : t ∈ spine t := by cases t; simp [spine]

/-! ## The calls of a tree are about its nodes -/

theorem of_callsOf {ev : Ev} {v : View α} {hs : List (Handler α σ)} {x : Call α σ} (h : x ∈ callsOf ev v hs) :
    x.view.node = v.node := by rw [(callsFrom_view h).2]

mutual
theorem calls_nodes (env : Env α σ) : ∀ (t : Tree α) (vcs : List (VC α)) (sc seed : Nat) (k : Key) (x : Call α σ),
    x ∈ calls env vcs sc seed k t → x.view.node ∈ nodes t
  | .mk i slots, vcs, sc, seed, k, x, h => by
    simp only [calls] at h
    rw [nodes]
    split at h
    · cases h
    · split at h
      · rcases List.mem_append.1 h with h | h <;> rw [of_callsOf h] <;> exact List.mem_cons_self ..
      · rcases List.mem_append.1 h with h | h
        · rw [of_callsOf h]; exact List.mem_cons_self ..
        · rcases List.mem_append.1 h with h | h
          · exact List.mem_cons_of_mem _ (callsS_nodes env slots _ _ _ x h)
          · rw [of_callsOf h]; exact List.mem_cons_self ..
      · rcases List.mem_append.1 h with h | h
        · rw [of_callsOf h]; exact List.mem_cons_self ..
        · rcases List.mem_append.1 h with h | h
          · exact List.mem_cons_of_mem _ (callsS_nodes env slots _ _ _ x h)
          · rw [of_callsOf h]; exact List.mem_cons_self ..
      · rcases List.mem_append.1 h with h | h
        · rw [of_callsOf h]; exact List.mem_cons_self ..
        · rcases List.mem_append.1 h with h | h
          · exact List.mem_cons_of_mem _ (callsF_nodes env slots _ _ _ _ x h)
          · rw [of_callsOf h]; exact List.mem_cons_self ..
theorem callsS_nodes (env : Env α σ) : ∀ (s : Slots α) (vcs : List (VC α)) (sc seed : Nat) (x : Call α σ),
    x ∈ callsS env vcs sc seed s → x.view.node ∈ nodesS s
  | .nil, _, _, _, x, h => by simp [callsS] at h
  | .one key o rest, vcs, sc, seed, x, h => by
    rw [callsS] at h; rw [nodesS]
    rcases List.mem_append.1 h with h | h
    · exact List.mem_append_left _ (callsO_nodes env o _ _ _ _ x h)
    · exact List.mem_append_right _ (callsS_nodes env rest _ _ _ x h)
  | .many key ts rest, vcs, sc, seed, x, h => by
    rw [callsS] at h; rw [nodesS]
    rcases List.mem_append.1 h with h | h
    · exact List.mem_append_left _ (callsL_nodes env ts _ _ _ _ _ x h)
    · exact List.mem_append_right _ (callsS_nodes env rest _ _ _ x h)
theorem callsF_nodes (env : Env α σ) : ∀ (s : Slots α) (vcs : List (VC α)) (sc seed : Nat) (i : Info α) (x : Call α σ),
    x ∈ callsF env vcs sc seed i s → x.view.node ∈ nodesS s
  | .nil, _, _, _, _, x, h => by simp [callsF] at h
  | .one key o rest, vcs, sc, seed, i, x, h => by
    rw [callsF] at h; rw [nodesS]
    rcases List.mem_append.1 h with h | h
    · exact List.mem_append_left _ (callsO_nodes env o _ _ _ _ x h)
    · exact List.mem_append_right _ (callsS_nodes env rest _ _ _ x h)
  | .many key ts rest, vcs, sc, seed, i, x, h => by
    rw [callsF] at h; rw [nodesS]
    rcases List.mem_append.1 h with h | h
    · exact List.mem_append_left _ (callsL_nodes env ts _ _ _ _ _ x h)
    · exact List.mem_append_right _ (callsS_nodes env rest _ _ _ x h)
theorem callsO_nodes (env : Env α σ) : ∀ (o : OTree α) (vcs : List (VC α)) (sc seed : Nat) (k : Key) (x : Call α σ),
    x ∈ callsO env vcs sc seed k o → x.view.node ∈ nodesO o
  | .none, _, _, _, _, x, h => by simp [callsO] at h
  | .some t, vcs, sc, seed, k, x, h => by
    rw [callsO] at h; rw [nodesO]
    exact calls_nodes env t _ _ _ _ x h
theorem callsL_nodes (env : Env α σ) : ∀ (ts : Trees α) (vcs : List (VC α)) (sc seed : Nat) (key : String) (n : Nat)
    (x : Call α σ), x ∈ callsL env vcs sc seed key n ts → x.view.node ∈ nodesL ts
  | .nil, _, _, _, _, _, x, h => by simp [callsL] at h
  | .cons o rest, vcs, sc, seed, key, n, x, h => by
    rw [callsL] at h; rw [nodesL]
    rcases List.mem_append.1 h with h | h
    · exact List.mem_append_left _ (callsO_nodes env o _ _ _ _ x h)
    · exact List.mem_append_right _ (callsL_nodes env rest _ _ _ _ _ x h)
end

/-! ## The calls of a tree are of registered listeners -/

theorem callsFrom_mem {ev : Ev} {v : View α} {hs : List (Handler α σ)} {n : Nat} {x : Call α σ}
    (h : x ∈ callsFrom ev v n hs) : x.h ∈ hs := by
  induction hs generalizing n with
  | nil => cases h
  | cons a hs ih =>
    rw [callsFrom] at h
    rcases List.mem_cons.1 h with rfl | h
    · exact List.mem_cons_self ..
    · exact List.mem_cons_of_mem _ (ih h)

mutual
theorem calls_listener (env : Env α σ) : ∀ (t : Tree α) (vcs : List (VC α)) (sc seed : Nat) (k : Key) (x : Call α σ),
    x ∈ calls env vcs sc seed k t → ∃ e, x.h ∈ env.listeners e
  | .mk i slots, vcs, sc, seed, k, x, h => by
    simp only [calls] at h
    split at h
    · cases h
    · split at h
      · rcases List.mem_append.1 h with h | h <;> exact ⟨_, callsFrom_mem h⟩
      · rcases List.mem_append.1 h with h | h
        · exact ⟨_, callsFrom_mem h⟩
        · rcases List.mem_append.1 h with h | h
          · exact callsS_listener env slots _ _ _ x h
          · exact ⟨_, callsFrom_mem h⟩
      · rcases List.mem_append.1 h with h | h
        · exact ⟨_, callsFrom_mem h⟩
        · rcases List.mem_append.1 h with h | h
          · exact callsS_listener env slots _ _ _ x h
          · exact ⟨_, callsFrom_mem h⟩
      · rcases List.mem_append.1 h with h | h
        · exact ⟨_, callsFrom_mem h⟩
        · rcases List.mem_append.1 h with h | h
          · exact callsF_listener env slots _ _ _ _ x h
          · exact ⟨_, callsFrom_mem h⟩
theorem callsS_listener (env : Env α σ) : ∀ (s : Slots α) (vcs : List (VC α)) (sc seed : Nat) (x : Call α σ),
    x ∈ callsS env vcs sc seed s → ∃ e, x.h ∈ env.listeners e
  | .nil, _, _, _, x, h => by simp [callsS] at h
  | .one key o rest, vcs, sc, seed, x, h => by
    rw [callsS] at h
    rcases List.mem_append.1 h with h | h
    · exact callsO_listener env o _ _ _ _ x h
    · exact callsS_listener env rest _ _ _ x h
  | .many key ts rest, vcs, sc, seed, x, h => by
    rw [callsS] at h
    rcases List.mem_append.1 h with h | h
    · exact callsL_listener env ts _ _ _ _ _ x h
    · exact callsS_listener env rest _ _ _ x h
theorem callsF_listener (env : Env α σ) : ∀ (s : Slots α) (vcs : List (VC α)) (sc seed : Nat) (i : Info α) (x : Call α σ),
    x ∈ callsF env vcs sc seed i s → ∃ e, x.h ∈ env.listeners e
  | .nil, _, _, _, _, x, h => by simp [callsF] at h
  | .one key o rest, vcs, sc, seed, i, x, h => by
    rw [callsF] at h
    rcases List.mem_append.1 h with h | h
    · exact callsO_listener env o _ _ _ _ x h
    · exact callsS_listener env rest _ _ _ x h
  | .many key ts rest, vcs, sc, seed, i, x, h => by
    rw [callsF] at h
    rcases List.mem_append.1 h with h | h
    · exact callsL_listener env ts _ _ _ _ _ x h
    · exact callsS_listener env rest _ _ _ x h
theorem callsO_listener (env : Env α σ) : ∀ (o : OTree α) (vcs : List (VC α)) (sc seed : Nat) (k : Key) (x : Call α σ),
    x ∈ callsO env vcs sc seed k o → ∃ e, x.h ∈ env.listeners e
  | .none, _, _, _, _, x, h => by simp [callsO] at h
  | .some t, vcs, sc, seed, k, x, h => by
    rw [callsO] at h
    exact calls_listener env t _ _ _ _ x h
theorem callsL_listener (env : Env α σ) : ∀ (ts : Trees α) (vcs : List (VC α)) (sc seed : Nat) (key : String) (n : Nat)
    (x : Call α σ), x ∈ callsL env vcs sc seed key n ts → ∃ e, x.h ∈ env.listeners e
  | .nil, _, _, _, _, _, x, h => by simp [callsL] at h
  | .cons o rest, vcs, sc, seed, key, n, x, h => by
    rw [callsL] at h
    rcases List.mem_append.1 h with h | h
    · exact callsO_listener env o _ _ _ _ x h
    · exact callsL_listener env rest _ _ _ _ _ x h
end

/-! ## A stopped walk -/

/-- The first element of the open scopes inside a scope a node opens. -/
theorem inner_ids (c : Ctx α σ) (sc : Nat) (r : List Nat) (hi : c.ids = sc :: r) (b : Bool) :
    ∃ r', (if b then { c with ids := c.seed :: c.ids, seed := c.seed + 1 } else c).ids = (if b then c.seed else sc) :: r' := by
  cases b
  · exact ⟨r, hi⟩
  · exact ⟨c.ids, rfl⟩

theorem inner_vc (c : Ctx α σ) (b : Bool) :
    (if b then { c with ids := c.seed :: c.ids, seed := c.seed + 1 } else c).vc = c.vc := by cases b <;> rfl

theorem inner_stopped (c : Ctx α σ) (b : Bool) :
    (if b then { c with ids := c.seed :: c.ids, seed := c.seed + 1 } else c).stop = c.stop := by cases b <;> rfl

theorem inner_seed (c : Ctx α σ) (b : Bool) :
    (if b then { c with ids := c.seed :: c.ids, seed := c.seed + 1 } else c).seed = c.seed + if b then 1 else 0 := by
  cases b <;> rfl

/-- What is still called below a node when the walk is already stopped. -/
def OnSpine (l : List (Tree α)) (y : Call α σ) : Prop := y.idx = 0 ∧ y.view.node ∈ l

theorem StopSeg.mono {c : Ctx α σ} {r : Option (Ctx α σ)} {L : List (Call α σ)} {P Q : Call α σ → Prop}
    (h : StopSeg c r L P) (hpq : ∀ y, P y → Q y) : StopSeg c r L Q := by
  obtain ⟨c1, ex, h1, h2, h3, h4, h5, h6, h7⟩ := h
  exact ⟨c1, ex, h1, h2, h3, h4, h5, fun y hy => hpq y (h6 y hy), h7⟩

mutual
theorem stop_tree (env : Env α σ) (hr : env.raise = false) : ∀ (t : Tree α) (k : Key) (c : Ctx α σ) (sc : Nat) (r : List Nat),
    c.vc ≠ [] → c.ids = sc :: r → c.stop = true →
    StopSeg c (visitTree env k t c) (calls env c.vc sc c.seed k t) (OnSpine (spine t))
  | .mk i slots, k, c, sc, r, hne, hi, hst => by
    rw [visitTree]
    refine StopSeg.withVC hne (fun c => _) _ _ ?_
    simp only [calls]
    have hsub : ∀ y : Call α σ, OnSpine (spineS slots) y → (y.idx = 0 ∧ y.view.node ∈ spine (.mk i slots)) :=
      fun y h => ⟨h.1, by rw [spine]; exact List.mem_cons_of_mem _ h.2⟩
    cases hv : env.visitors i.typ with
    | none =>
      simp only [hr, Bool.false_eq_true, if_false]
      exact ⟨_, [], rfl, rfl, rfl, hst, List.nil_sublist _, by simp, rfl⟩
    | some row =>
      simp only
      generalize hvc : (⟨.mk i slots, pathOf env c.vc k⟩ : VC α) :: c.vc = vcs
      have hvne : vcs ≠ [] := by rw [← hvc]; simp
      cases hsh : row.shape with
      | atom =>
        simp only [hsh]
        have := inner_stop env row.event (.mk i slots) k { c with vc := vcs } hst sc r hi (fun c => some c) []
          (fun c1 _ _ _ h => ⟨c1, [], rfl, rfl, rfl, h, List.nil_sublist _, by simp, rfl⟩)
        simp only [Option.bind_some, List.nil_append] at this
        exact this
      | inner p =>
        cases p with
        | never =>
          simp only [hsh]
          refine inner_stop env row.event (.mk i slots) k { c with vc := vcs } hst sc r hi _ _ ?_
          intro c1 h1 h2 h3 h4
          have := stop_slots env hr slots c1 sc r (by rw [h1]; exact hvne) (h2.trans hi) h4
          rw [h1, h3] at this
          exact this.mono hsub
        | before =>
          simp only [hsh]
          subst hvc
          obtain ⟨r', hr'⟩ := inner_ids { c with vc := (⟨.mk i slots, pathOf env c.vc k⟩ : VC α) :: c.vc } sc r hi
            (i.newScope.getD true)
          have hvc' := inner_vc { c with vc := (⟨.mk i slots, pathOf env c.vc k⟩ : VC α) :: c.vc } (i.newScope.getD true)
          have hseed := inner_seed { c with vc := (⟨.mk i slots, pathOf env c.vc k⟩ : VC α) :: c.vc } (i.newScope.getD true)
          have hstp := inner_stopped { c with vc := (⟨.mk i slots, pathOf env c.vc k⟩ : VC α) :: c.vc } (i.newScope.getD true)
          have := StopSeg.scoped (c := { c with vc := (⟨.mk i slots, pathOf env c.vc k⟩ : VC α) :: c.vc }) rfl
            (fun c => (call env (beforeEvent row.event) (.mk i slots) k c).bind fun c =>
              (visitSlots env slots c).bind fun c => call env (afterEvent row.event) (.mk i slots) k c) _ _
            (inner_stop env row.event (.mk i slots) k _ (hstp.trans hst) _ r' hr' (visitSlots env slots)
              (callsS env ((⟨.mk i slots, pathOf env c.vc k⟩ : VC α) :: c.vc) (if i.newScope.getD true then c.seed else sc)
                (c.seed + opensIf i) slots) (by
                intro c1 h1 h2 h3 h4
                have := stop_slots env hr slots c1 _ r' (by rw [h1, hvc']; exact List.cons_ne_nil _ _) (h2.trans hr') h4
                rw [h1, h3, hvc', hseed] at this
                exact this.mono hsub))
          rw [hvc'] at this
          simp only [Option.bind_assoc] at this
          exact this
        | afterFirst =>
          simp only [hsh]
          refine inner_stop env row.event (.mk i slots) k { c with vc := vcs } hst sc r hi _ _ ?_
          intro c1 h1 h2 h3 h4
          have := stop_fn env hr slots c1 sc r i (by rw [h1]; exact hvne) (h2.trans hi) h4
          rw [h1, h3] at this
          exact this.mono hsub
theorem stop_slots (env : Env α σ) (hr : env.raise = false) : ∀ (s : Slots α) (c : Ctx α σ) (sc : Nat) (r : List Nat),
    c.vc ≠ [] → c.ids = sc :: r → c.stop = true →
    StopSeg c (visitSlots env s c) (callsS env c.vc sc c.seed s) (OnSpine (spineS s))
  | .nil, c, sc, r, hne, hi, hst => ⟨c, [], by rw [visitSlots], rfl, rfl, hst, List.nil_sublist _, by simp, rfl⟩
  | .one key o rest, c, sc, r, hne, hi, hst => by
    rw [visitSlots, callsS, spineS]
    exact StopSeg.check _ _ (stop_o env hr o _ c sc r hne hi hst)
  | .many key ts rest, c, sc, r, hne, hi, hst => by
    rw [visitSlots, callsS, spineS]
    exact StopSeg.check _ _ (stop_trees env hr ts key 0 c sc r hne hi hst)
theorem stop_fn (env : Env α σ) (hr : env.raise = false) : ∀ (s : Slots α) (c : Ctx α σ) (sc : Nat) (r : List Nat) (i : Info α),
    c.vc ≠ [] → c.ids = sc :: r → c.stop = true →
    StopSeg c (visitFn env s c) (callsF env c.vc sc c.seed i s) (OnSpine (spineS s))
  | .nil, c, sc, r, i, hne, hi, hst => by
    obtain ⟨v, vr, hv⟩ := List.exists_cons_of_ne_nil hne
    rw [visitFn, callsF]
    have := StopSeg.scoped hv (fun c => some c) [] (OnSpine (spineS (.nil : Slots α)))
      (by refine ⟨_, [], rfl, rfl, rfl, ?_, List.nil_sublist _, by simp, rfl⟩; rw [inner_stopped]; exact hst)
    simpa using this
  | .one key o rest, c, sc, r, i, hne, hi, hst => by
    rw [visitFn, callsF, spineS]
    exact StopSeg.check _ _ (stop_o env hr o _ c sc r hne hi hst)
  | .many key ts rest, c, sc, r, i, hne, hi, hst => by
    rw [visitFn, callsF, spineS]
    exact StopSeg.check _ _ (stop_trees env hr ts key 0 c sc r hne hi hst)
theorem stop_o (env : Env α σ) (hr : env.raise = false) : ∀ (o : OTree α) (k : Key) (c : Ctx α σ) (sc : Nat) (r : List Nat),
    c.vc ≠ [] → c.ids = sc :: r → c.stop = true →
    StopSeg c (visitO env k o c) (callsO env c.vc sc c.seed k o) (OnSpine (spineO o))
  | .none, k, c, sc, r, hne, hi, hst => ⟨c, [], by rw [visitO], rfl, rfl, hst, List.nil_sublist _, by simp, rfl⟩
  | .some t, k, c, sc, r, hne, hi, hst => by
    rw [visitO, callsO, spineO]
    exact stop_tree env hr t k c sc r hne hi hst
theorem stop_trees (env : Env α σ) (hr : env.raise = false) : ∀ (ts : Trees α) (key : String) (n : Nat) (c : Ctx α σ)
    (sc : Nat) (r : List Nat), c.vc ≠ [] → c.ids = sc :: r → c.stop = true →
    StopSeg c (visitTrees env key n ts c) (callsL env c.vc sc c.seed key n ts) (OnSpine (spineL ts))
  | .nil, key, n, c, sc, r, hne, hi, hst => ⟨c, [], by rw [visitTrees], rfl, rfl, hst, List.nil_sublist _, by simp, rfl⟩
  | .cons o rest, key, n, c, sc, r, hne, hi, hst => by
    rw [visitTrees, callsL, spineL]
    exact StopSeg.check _ _ (stop_o env hr o _ c sc r hne hi hst)
end

/-! ## A walk not yet stopped -/

mutual
theorem ok_tree (env : Env α σ) (hr : env.raise = false) : ∀ (t : Tree α) (k : Key) (c : Ctx α σ) (sc : Nat) (r : List Nat),
    c.vc ≠ [] → c.ids = sc :: r → c.stop = false →
    OkSeg c (visitTree env k t c) (calls env c.vc sc c.seed k t) (opened (ruleOf env.visitors) t)
  | .mk i slots, k, c, sc, r, hne, hi, hst => by
    rw [visitTree]
    refine OkSeg.withVC hne (fun c => _) _ _ ?_
    simp only [calls, opened]
    have hsub : ∀ y : Call α σ, OnSpine (spineS slots) y → (y.idx = 0 ∧ y.view.node ∈ spine (.mk i slots)) :=
      fun y h => ⟨h.1, by rw [spine]; exact List.mem_cons_of_mem _ h.2⟩
    have hnod : ∀ x : Tree α, x ∈ nodesS slots → x ∈ nodes (.mk i slots) := fun x h => by
      rw [nodes]; exact List.mem_cons_of_mem _ h
    cases hv : env.visitors i.typ with
    | none =>
      simp only [hr, Bool.false_eq_true, if_false, ruleOf, hv]
      exact ⟨_, rfl, rfl, rfl, .inl ⟨hst, rfl, trivial, rfl⟩⟩
    | some row =>
      simp only
      generalize hvc : (⟨.mk i slots, pathOf env c.vc k⟩ : VC α) :: c.vc = vcs
      have hvne : vcs ≠ [] := by rw [← hvc]; simp
      obtain ⟨ty, evt, shape, sd⟩ := row
      cases shape with
      | atom =>
        simp only [ruleOf, hv]
        have := inner_ok env evt (.mk i slots) k { c with vc := vcs } hst sc r hi (fun c => some c) [] 0 (by simp)
          (fun c1 _ _ _ h => ⟨c1, rfl, rfl, rfl, .inl ⟨h, rfl, trivial, rfl⟩⟩)
          (fun c1 _ _ _ h => ⟨c1, [], rfl, rfl, rfl, h, List.nil_sublist _, by simp, rfl⟩)
        simp only [Option.bind_some, List.nil_append] at this
        exact this
      | inner p =>
        cases p with
        | never =>
          simp only [ruleOf, hv]
          refine inner_ok env evt (.mk i slots) k { c with vc := vcs } hst sc r hi _ _ _ ?_ ?_ ?_
          · intro x hx; exact hnod _ (callsS_nodes env slots _ _ _ x hx)
          · intro c1 h1 h2 h3 h4
            have := ok_slots env hr slots c1 sc r (by rw [h1]; exact hvne) (h2.trans hi) h4
            rw [h1, h3] at this
            exact this
          · intro c1 h1 h2 h3 h4
            have := stop_slots env hr slots c1 sc r (by rw [h1]; exact hvne) (h2.trans hi) h4
            rw [h1, h3] at this
            exact this.mono hsub
        | before =>
          simp only [ruleOf, hv]
          subst hvc
          obtain ⟨r', hr'⟩ := inner_ids { c with vc := (⟨.mk i slots, pathOf env c.vc k⟩ : VC α) :: c.vc } sc r hi
            (i.newScope.getD true)
          have hvc' := inner_vc { c with vc := (⟨.mk i slots, pathOf env c.vc k⟩ : VC α) :: c.vc } (i.newScope.getD true)
          have hseed := inner_seed { c with vc := (⟨.mk i slots, pathOf env c.vc k⟩ : VC α) :: c.vc } (i.newScope.getD true)
          have hstp := inner_stopped { c with vc := (⟨.mk i slots, pathOf env c.vc k⟩ : VC α) :: c.vc } (i.newScope.getD true)
          have := OkSeg.scoped (c := { c with vc := (⟨.mk i slots, pathOf env c.vc k⟩ : VC α) :: c.vc }) rfl
            (fun c => (call env (beforeEvent evt) (.mk i slots) k c).bind fun c =>
              (visitSlots env slots c).bind fun c => call env (afterEvent evt) (.mk i slots) k c) _ _
            (inner_ok env evt (.mk i slots) k _ (hstp.trans hst) _ r' hr' (visitSlots env slots)
              (callsS env ((⟨.mk i slots, pathOf env c.vc k⟩ : VC α) :: c.vc) (if i.newScope.getD true then c.seed else sc)
                (c.seed + opensIf i) slots) (openedS (ruleOf env.visitors) slots)
                (by intro x hx; exact hnod _ (callsS_nodes env slots _ _ _ x hx))
                (by
                  intro c1 h1 h2 h3 h4
                  have := ok_slots env hr slots c1 _ r' (by rw [h1, hvc']; exact List.cons_ne_nil _ _) (h2.trans hr') h4
                  rw [h1, h3, hvc', hseed] at this
                  exact this)
                (by
                  intro c1 h1 h2 h3 h4
                  have := stop_slots env hr slots c1 _ r' (by rw [h1, hvc']; exact List.cons_ne_nil _ _) (h2.trans hr') h4
                  rw [h1, h3, hvc', hseed] at this
                  exact this.mono hsub))
          rw [hvc'] at this
          simp only [Option.bind_assoc] at this
          exact this
        | afterFirst =>
          simp only [ruleOf, hv]
          refine inner_ok env evt (.mk i slots) k { c with vc := vcs } hst sc r hi _ _ _ ?_ ?_ ?_
          · intro x hx; exact hnod _ (callsF_nodes env slots _ _ _ _ x hx)
          · intro c1 h1 h2 h3 h4
            have := ok_fn env hr slots c1 sc r i ⟨_, _, by rw [h1]; exact hvc.symm, rfl⟩ (h2.trans hi) h4
            rw [h1, h3] at this
            exact this
          · intro c1 h1 h2 h3 h4
            have := stop_fn env hr slots c1 sc r i (by rw [h1]; exact hvne) (h2.trans hi) h4
            rw [h1, h3] at this
            exact this.mono hsub
theorem ok_slots (env : Env α σ) (hr : env.raise = false) : ∀ (s : Slots α) (c : Ctx α σ) (sc : Nat) (r : List Nat),
    c.vc ≠ [] → c.ids = sc :: r → c.stop = false →
    OkSeg c (visitSlots env s c) (callsS env c.vc sc c.seed s) (openedS (ruleOf env.visitors) s)
  | .nil, c, sc, r, hne, hi, hst => ⟨c, by rw [visitSlots], rfl, rfl, .inl ⟨hst, by simp [openedS], trivial, rfl⟩⟩
  | .one key o rest, c, sc, r, hne, hi, hst => by
    rw [visitSlots, callsS, openedS]
    refine OkSeg.seqCheck _ (ok_o env hr o _ c sc r hne hi hst) ?_
    intro c1 h1 h2 h3 h4
    have := ok_slots env hr rest c1 sc r (by rw [h1]; exact hne) (h2.trans hi) h3
    rw [h1, h4] at this
    exact this
  | .many key ts rest, c, sc, r, hne, hi, hst => by
    rw [visitSlots, callsS, openedS]
    refine OkSeg.seqCheck _ (ok_trees env hr ts key 0 c sc r hne hi hst) ?_
    intro c1 h1 h2 h3 h4
    have := ok_slots env hr rest c1 sc r (by rw [h1]; exact hne) (h2.trans hi) h3
    rw [h1, h4] at this
    exact this
theorem ok_fn (env : Env α σ) (hr : env.raise = false) : ∀ (s : Slots α) (c : Ctx α σ) (sc : Nat) (r : List Nat) (i : Info α),
    (∃ v vr, c.vc = v :: vr ∧ v.node.info = i) → c.ids = sc :: r → c.stop = false →
    OkSeg c (visitFn env s c) (callsF env c.vc sc c.seed i s) (opensIf i + openedS (ruleOf env.visitors) s)
  | .nil, c, sc, r, i, ⟨v, vr, hv, hvi⟩, hi, hst => by
    rw [visitFn, callsF, openedS]
    have := OkSeg.scoped hv (fun c => some c) [] 0
      (by refine ⟨_, rfl, rfl, rfl, .inl ⟨?_, rfl, trivial, rfl⟩⟩; rw [inner_stopped]; exact hst)
    rw [hvi] at this
    simpa using this
  | .one key o rest, c, sc, r, i, ⟨v, vr, hv, hvi⟩, hi, hst => by
    rw [visitFn, callsF, openedS]
    have he : opensIf i + (openedO (ruleOf env.visitors) o + openedS (ruleOf env.visitors) rest) =
      openedO (ruleOf env.visitors) o + (opensIf i + openedS (ruleOf env.visitors) rest) := by omega
    rw [he]
    refine OkSeg.seqCheck _ (ok_o env hr o _ c sc r (by simp [hv]) hi hst) ?_
    intro c1 h1 h2 h3 h4
    have hv1 := h1.trans hv
    obtain ⟨r', hr'⟩ := inner_ids c1 sc r (h2.trans hi) (i.newScope.getD true)
    have hvc' := inner_vc c1 (i.newScope.getD true)
    have hseed := inner_seed c1 (i.newScope.getD true)
    have hstp := inner_stopped c1 (i.newScope.getD true)
    have := OkSeg.scoped hv1 (visitSlots env rest) _ _ (by
      rw [hvi]
      exact ok_slots env hr rest _ _ r' (by rw [hvc', hv1]; simp) hr' (hstp.trans h3))
    rw [hvi, hvc', hseed, h1, h4] at this
    exact this
  | .many key ts rest, c, sc, r, i, ⟨v, vr, hv, hvi⟩, hi, hst => by
    rw [visitFn, callsF, openedS]
    have he : opensIf i + (openedL (ruleOf env.visitors) ts + openedS (ruleOf env.visitors) rest) =
      openedL (ruleOf env.visitors) ts + (opensIf i + openedS (ruleOf env.visitors) rest) := by omega
    rw [he]
    refine OkSeg.seqCheck _ (ok_trees env hr ts key 0 c sc r (by simp [hv]) hi hst) ?_
    intro c1 h1 h2 h3 h4
    have hv1 := h1.trans hv
    obtain ⟨r', hr'⟩ := inner_ids c1 sc r (h2.trans hi) (i.newScope.getD true)
    have hvc' := inner_vc c1 (i.newScope.getD true)
    have hseed := inner_seed c1 (i.newScope.getD true)
    have hstp := inner_stopped c1 (i.newScope.getD true)
    have := OkSeg.scoped hv1 (visitSlots env rest) _ _ (by
      rw [hvi]
      exact ok_slots env hr rest _ _ r' (by rw [hvc', hv1]; simp) hr' (hstp.trans h3))
    rw [hvi, hvc', hseed, h1, h4] at this
    exact this
theorem ok_o (env : Env α σ) (hr : env.raise = false) : ∀ (o : OTree α) (k : Key) (c : Ctx α σ) (sc : Nat) (r : List Nat),
    c.vc ≠ [] → c.ids = sc :: r → c.stop = false →
    OkSeg c (visitO env k o c) (callsO env c.vc sc c.seed k o) (openedO (ruleOf env.visitors) o)
  | .none, k, c, sc, r, hne, hi, hst => ⟨c, by rw [visitO], rfl, rfl, .inl ⟨hst, by simp [openedO], trivial, rfl⟩⟩
  | .some t, k, c, sc, r, hne, hi, hst => by
    rw [visitO, callsO, openedO]
    exact ok_tree env hr t k c sc r hne hi hst
theorem ok_trees (env : Env α σ) (hr : env.raise = false) : ∀ (ts : Trees α) (key : String) (n : Nat) (c : Ctx α σ)
    (sc : Nat) (r : List Nat), c.vc ≠ [] → c.ids = sc :: r → c.stop = false →
    OkSeg c (visitTrees env key n ts c) (callsL env c.vc sc c.seed key n ts) (openedL (ruleOf env.visitors) ts)
  | .nil, key, n, c, sc, r, hne, hi, hst => ⟨c, by rw [visitTrees], rfl, rfl, .inl ⟨hst, by simp [openedL], trivial, rfl⟩⟩
  | .cons o rest, key, n, c, sc, r, hne, hi, hst => by
    rw [visitTrees, callsL, openedL]
    refine OkSeg.seqCheck _ (ok_o env hr o _ c sc r hne hi hst) ?_
    intro c1 h1 h2 h3 h4
    have := ok_trees env hr rest key (n + 1) c1 sc r (by rw [h1]; exact hne) (h2.trans hi) h3
    rw [h1, h4] at this
    exact this
end

end Mole.Walk
