import Verif.Walk.Spec

/-! Lemmas about the walker. -/

namespace Mole.Walk

open Spec

variable {α σ : Type}

/-! ## Segments of a walk -/

/-- A part of a walk that starts unstopped: it either makes the calls `L` and opens `n` scopes, or is stopped by one of them. -/
def OkSeg (c : Ctx α σ) (r : Option (Ctx α σ)) (L : List (Call α σ)) (n : Nat) : Prop :=
  ∃ c', r = some c' ∧ c'.vc = c.vc ∧ c'.ids = c.ids ∧
    ((c'.stop = false ∧ c'.seed = c.seed + n ∧ Quiet L c.user ∧ c'.user = runAll L c.user) ∨
     (c'.stop = true ∧ ∃ pre x post extra, L = pre ++ x :: post ∧ Quiet pre c.user ∧
       (x.h x.view (runAll pre c.user)).2 = true ∧ List.Sublist extra post ∧ (∀ y ∈ extra, Leftover x y) ∧
       c'.user = runAll (pre ++ x :: extra) c.user))

/-- A part of a walk that starts stopped: some of the calls `L` are made, all with `Q`. -/
def StopSeg (c : Ctx α σ) (r : Option (Ctx α σ)) (L : List (Call α σ)) (Q : Call α σ → Prop) : Prop :=
  ∃ c' extra, r = some c' ∧ c'.vc = c.vc ∧ c'.ids = c.ids ∧ c'.stop = true ∧ List.Sublist extra L ∧
    (∀ y ∈ extra, Q y) ∧ c'.user = runAll extra c.user

theorem runAll_append (a b : List (Call α σ)) (u : σ) : runAll (a ++ b) u = runAll b (runAll a u) := by
  simp [runAll, List.foldl_append]

theorem quiet_append (a b : List (Call α σ)) (u : σ) : Quiet (a ++ b) u ↔ Quiet a u ∧ Quiet b (runAll a u) := by
  induction a generalizing u with
  | nil => simp [Quiet, runAll]
  | cons x xs ih => simp [Quiet, ih, runAll, and_assoc]

/-- Two parts one after the other, the second may run stopped. -/
theorem OkSeg.seq {c : Ctx α σ} {r : Option (Ctx α σ)} {L1 L2 : List (Call α σ)} {n1 n2 : Nat}
    (k : Ctx α σ → Option (Ctx α σ)) (Q : Call α σ → Prop) (h : OkSeg c r L1 n1)
    (hk : ∀ c1 : Ctx α σ, c1.vc = c.vc → c1.ids = c.ids → c1.stop = false → c1.seed = c.seed + n1 → OkSeg c1 (k c1) L2 n2)
    (hs : ∀ c1 : Ctx α σ, r = some c1 → c1.vc = c.vc → c1.ids = c.ids → c1.stop = true → StopSeg c1 (k c1) L2 Q)
    (hq : ∀ x ∈ L1, ∀ y, Q y → Leftover x y) :
    OkSeg c (r.bind k) (L1 ++ L2) (n1 + n2) := by
  obtain ⟨c1, rfl, hvc, hids, h⟩ := h
  simp only [Option.bind_some]
  rcases h with ⟨hst, hseed, hquiet, huser⟩ | ⟨hst, pre, x, post, extra, hL, hquiet, hx, hsub, hleft, huser⟩
  · obtain ⟨c2, h1, h2, h3, h4⟩ := hk c1 hvc hids hst hseed
    refine ⟨c2, h1, h2.trans hvc, h3.trans hids, ?_⟩
    rcases h4 with ⟨a1, a2, a3, a4⟩ | ⟨a1, pre, x, post, extra, b1, b2, b3, b4, b5, b6⟩
    · refine .inl ⟨a1, by omega, ?_, ?_⟩
      · rw [quiet_append]; exact ⟨hquiet, by rw [← huser]; exact a3⟩
      · rw [runAll_append, ← huser]; exact a4
    · refine .inr ⟨a1, L1 ++ pre, x, post, extra, by simp [b1], ?_, ?_, b4, b5, ?_⟩
      · rw [quiet_append]; exact ⟨hquiet, by rw [← huser]; exact b2⟩
      · rw [runAll_append, ← huser]; exact b3
      · rw [List.append_assoc, runAll_append, ← huser]; exact b6
  · obtain ⟨c2, ex2, h1, h2, h3, h4, h5, h6, h7⟩ := hs c1 rfl hvc hids hst
    refine ⟨c2, h1, h2.trans hvc, h3.trans hids, .inr ⟨h4, pre, x, post ++ L2, extra ++ ex2, by simp [hL], hquiet, hx,
      hsub.append h5, ?_, ?_⟩⟩
    · intro y hy
      rcases List.mem_append.1 hy with hy | hy
      · exact hleft y hy
      · exact hq x (by simp [hL]) y (h6 y hy)
    · rw [h7, huser, ← runAll_append]; simp

/-- Two parts one after the other, the second skipped when stopped. -/
theorem OkSeg.seqCheck {c : Ctx α σ} {r : Option (Ctx α σ)} {L1 L2 : List (Call α σ)} {n1 n2 : Nat}
    (k : Ctx α σ → Option (Ctx α σ)) (h : OkSeg c r L1 n1)
    (hk : ∀ c1 : Ctx α σ, c1.vc = c.vc → c1.ids = c.ids → c1.stop = false → c1.seed = c.seed + n1 → OkSeg c1 (k c1) L2 n2) :
    OkSeg c (r.bind fun c => if c.stop then some c else k c) (L1 ++ L2) (n1 + n2) := by
  refine OkSeg.seq _ (fun _ => False) h ?_ ?_ (fun _ _ _ h => h.elim)
  · intro c1 h1 h2 h3 h4
    simpa [h3] using hk c1 h1 h2 h3 h4
  · intro c1 _ h1 h2 h3
    exact ⟨c1, [], by simp [h3], rfl, rfl, h3, List.nil_sublist _, by simp, rfl⟩

theorem StopSeg.seq {c : Ctx α σ} {r : Option (Ctx α σ)} {L1 L2 : List (Call α σ)} {Q : Call α σ → Prop}
    (k : Ctx α σ → Option (Ctx α σ)) (h : StopSeg c r L1 Q)
    (hs : ∀ c1 : Ctx α σ, r = some c1 → c1.vc = c.vc → c1.ids = c.ids → c1.stop = true → StopSeg c1 (k c1) L2 Q) :
    StopSeg c (r.bind k) (L1 ++ L2) Q := by
  obtain ⟨c1, e1, rfl, h2, h3, h4, h5, h6, h7⟩ := h
  obtain ⟨c2, e2, k1, k2, k3, k4, k5, k6, k7⟩ := hs c1 rfl h2 h3 h4
  refine ⟨c2, e1 ++ e2, k1, k2.trans h2, k3.trans h3, k4, h5.append k5, ?_, ?_⟩
  · intro y hy
    rcases List.mem_append.1 hy with hy | hy
    · exact h6 y hy
    · exact k6 y hy
  · rw [k7, h7, ← runAll_append]

/-- A check right after a stopped part ends it. -/
theorem StopSeg.check {c : Ctx α σ} {r : Option (Ctx α σ)} {L1 : List (Call α σ)} {Q : Call α σ → Prop} (L2 : List (Call α σ))
    (k : Ctx α σ → Option (Ctx α σ)) (h : StopSeg c r L1 Q) :
    StopSeg c (r.bind fun c => if c.stop then some c else k c) (L1 ++ L2) Q := by
  refine StopSeg.seq _ h ?_
  intro c1 _ h1 h2 h3
  exact ⟨c1, [], by simp [h3], rfl, rfl, h3, List.nil_sublist _, by simp, rfl⟩

/-! ## Listeners of one event -/

theorem callAll_ctx (hs : List (Handler α σ)) (v : View α) (c : Ctx α σ) :
    (callAll hs v c).vc = c.vc ∧ (callAll hs v c).ids = c.ids ∧ (callAll hs v c).seed = c.seed := by
  induction hs generalizing c with
  | nil => exact ⟨rfl, rfl, rfl⟩
  | cons h hs ih =>
    simp only [callAll]
    by_cases hb : (c.stop || (h v c.user).2) = true
    · simp [hb]
    · simpa [hb] using ih { c with user := (h v c.user).1, stop := c.stop || (h v c.user).2 }

theorem callAll_run (ev : Ev) (hs : List (Handler α σ)) (v : View α) (c : Ctx α σ) (hc : c.stop = false) (n : Nat) :
    ((callAll hs v c).stop = false ∧ Quiet (callsFrom ev v n hs) c.user ∧
      (callAll hs v c).user = runAll (callsFrom ev v n hs) c.user) ∨
    ((callAll hs v c).stop = true ∧ ∃ pre x post, callsFrom ev v n hs = pre ++ x :: post ∧ Quiet pre c.user ∧
      (x.h x.view (runAll pre c.user)).2 = true ∧ (callAll hs v c).user = runAll (pre ++ [x]) c.user) := by
  induction hs generalizing c n with
  | nil => exact .inl ⟨hc, trivial, rfl⟩
  | cons h hs ih =>
    simp only [callAll, callsFrom, hc, Bool.false_or]
    by_cases hb : (h v c.user).2 = true
    · refine .inr ⟨by simp [hb], [], ⟨ev, n, h, v⟩, callsFrom ev v (n + 1) hs, rfl, trivial, hb, by simp [hb, runAll]⟩
    · have hb : (h v c.user).2 = false := by simpa using hb
      simp only [hb, Bool.false_eq_true, if_false]
      rcases ih { c with user := (h v c.user).1, stop := false } rfl (n + 1) with
        ⟨a1, a2, a3⟩ | ⟨a1, pre, x, post, a2, a3, a4, a5⟩
      · exact .inl ⟨a1, ⟨hb, a2⟩, a3⟩
      · exact .inr ⟨a1, ⟨ev, n, h, v⟩ :: pre, x, post, by simp [a2], ⟨hb, a3⟩, a4, a5⟩

theorem call_ok (env : Env α σ) (ev : Ev) (e : Nat) (n : Tree α) (k : Key) (c : Ctx α σ) (hc : c.stop = false)
    (sc : Nat) (r : List Nat) (hi : c.ids = sc :: r) (vcs : List (VC α)) (hv : c.vc = vcs) :
    OkSeg c (call env e n k c) (callsOf ev ⟨n, k, vcs, sc⟩ (env.listeners e)) 0 := by
  obtain ⟨a1, a2, a3⟩ := callAll_ctx (env.listeners e) ⟨n, k, c.vc, sc⟩ c
  refine ⟨callAll (env.listeners e) ⟨n, k, c.vc, sc⟩ c, by simp [call, hi], a1, a2, ?_⟩
  subst hv
  rcases callAll_run ev (env.listeners e) ⟨n, k, c.vc, sc⟩ c hc 0 with ⟨b1, b2, b3⟩ | ⟨b1, pre, x, post, b2, b3, b4, b5⟩
  · exact .inl ⟨b1, a3, b2, b3⟩
  · exact .inr ⟨b1, pre, x, post, [], b2, b3, b4, List.nil_sublist _, by simp, b5⟩

theorem callsFrom_view {ev : Ev} {v : View α} {hs : List (Handler α σ)} {n : Nat} {x : Call α σ}
    (h : x ∈ callsFrom ev v n hs) : x.ev = ev ∧ x.view = v := by
  induction hs generalizing n with
  | nil => cases h
  | cons a hs ih =>
    rw [callsFrom] at h
    rcases List.mem_cons.1 h with rfl | h
    · exact ⟨rfl, rfl⟩
    · exact ih h

theorem call_stop (env : Env α σ) (ev : Ev) (e : Nat) (n : Tree α) (k : Key) (c : Ctx α σ) (hc : c.stop = true)
    (sc : Nat) (r : List Nat) (hi : c.ids = sc :: r) (vcs : List (VC α)) (hv : c.vc = vcs) :
    StopSeg c (call env e n k c) (callsOf ev ⟨n, k, vcs, sc⟩ (env.listeners e))
      (fun y => y.idx = 0 ∧ y.ev = ev ∧ y.view.node = n) := by
  subst hv
  simp only [call, hi]
  cases env.listeners e with
  | nil => exact ⟨c, [], rfl, rfl, rfl, hc, List.nil_sublist _, by simp, rfl⟩
  | cons h hs =>
    refine ⟨{ c with user := (h ⟨n, k, c.vc, sc⟩ c.user).1 }, [⟨ev, 0, h, ⟨n, k, c.vc, sc⟩⟩], ?_, rfl, rfl, hc, ?_, ?_, rfl⟩
    · simp [callAll, hc]
    · simp [callsOf, callsFrom]
    · simp

theorem call_seed {env : Env α σ} {e : Nat} {n : Tree α} {k : Key} {c c1 : Ctx α σ} (h : call env e n k c = some c1) :
    c1.seed = c.seed := by
  simp only [call] at h
  split at h
  · cases h
  · cases h; exact (callAll_ctx _ _ _).2.2

/-- The before-listeners, the children and the after-listeners of a node, in a walk not yet stopped. -/
theorem inner_ok (env : Env α σ) (e : Nat) (n : Tree α) (k : Key) (c : Ctx α σ) (hc : c.stop = false)
    (sc : Nat) (r : List Nat) (hi : c.ids = sc :: r) (g : Ctx α σ → Option (Ctx α σ)) (L : List (Call α σ)) (m : Nat)
    (hL : ∀ x ∈ L, x.view.node ∈ nodes n)
    (hg : ∀ c1 : Ctx α σ, c1.vc = c.vc → c1.ids = c.ids → c1.seed = c.seed → c1.stop = false → OkSeg c1 (g c1) L m)
    (hs : ∀ c1 : Ctx α σ, c1.vc = c.vc → c1.ids = c.ids → c1.seed = c.seed → c1.stop = true →
      StopSeg c1 (g c1) L (fun y => y.idx = 0 ∧ y.view.node ∈ spine n)) :
    OkSeg c ((call env (beforeEvent e) n k c).bind fun c => (g c).bind fun c => call env (afterEvent e) n k c)
      (callsOf .before ⟨n, k, c.vc, sc⟩ (env.listeners (beforeEvent e)) ++
        (L ++ callsOf .after ⟨n, k, c.vc, sc⟩ (env.listeners (afterEvent e)))) m := by
  have hself : n ∈ nodes n := by cases n; simp [nodes]
  have hspine : n ∈ spine n := by cases n; simp [spine]
  have hm : m = 0 + (m + 0) := by omega
  rw [hm]
  refine OkSeg.seq _ (fun y => y.idx = 0 ∧ y.view.node ∈ spine n) (call_ok env .before _ n k c hc sc r hi _ rfl) ?_ ?_ ?_
  · intro c1 h1 h2 h3 h4
    refine OkSeg.seq _ (fun y => y.idx = 0 ∧ y.ev = .after ∧ y.view.node = n) (hg c1 h1 h2 (by omega) h3) ?_ ?_ ?_
    · intro c2 k1 k2 k3 _
      exact call_ok env .after _ n k c2 k3 sc r (by rw [k2, h2, hi]) _ (by rw [k1, h1])
    · intro c2 _ k1 k2 k3
      exact call_stop env .after _ n k c2 k3 sc r (by rw [k2, h2, hi]) _ (by rw [k1, h1])
    · intro x hx y hy
      exact ⟨hy.1, .inl ⟨hy.2.1, by rw [hy.2.2]; exact hL x hx⟩⟩
  · intro c1 hr h1 h2 h3
    refine StopSeg.seq _ (hs c1 h1 h2 (call_seed hr) h3) ?_
    intro c2 _ k1 k2 k3
    obtain ⟨c3, ex, a1, a2, a3, a4, a5, a6, a7⟩ :=
      call_stop env .after (afterEvent e) n k c2 k3 sc r (by rw [k2, h2, hi]) _ (by rw [k1, h1])
    exact ⟨c3, ex, a1, a2, a3, a4, a5, fun y hy => ⟨(a6 y hy).1, by rw [(a6 y hy).2.2]; exact hspine⟩, a7⟩
  · intro x hx y hy
    obtain ⟨hx1, hx2⟩ := callsFrom_view hx
    exact ⟨hy.1, .inr ⟨hx1, by rw [hx2]; exact hy.2⟩⟩

/-- The same in a walk already stopped. -/
theorem inner_stop (env : Env α σ) (e : Nat) (n : Tree α) (k : Key) (c : Ctx α σ) (hc : c.stop = true)
    (sc : Nat) (r : List Nat) (hi : c.ids = sc :: r) (g : Ctx α σ → Option (Ctx α σ)) (L : List (Call α σ))
    (hs : ∀ c1 : Ctx α σ, c1.vc = c.vc → c1.ids = c.ids → c1.seed = c.seed → c1.stop = true →
      StopSeg c1 (g c1) L (fun y => y.idx = 0 ∧ y.view.node ∈ spine n)) :
    StopSeg c ((call env (beforeEvent e) n k c).bind fun c => (g c).bind fun c => call env (afterEvent e) n k c)
      (callsOf .before ⟨n, k, c.vc, sc⟩ (env.listeners (beforeEvent e)) ++
        (L ++ callsOf .after ⟨n, k, c.vc, sc⟩ (env.listeners (afterEvent e))))
      (fun y => y.idx = 0 ∧ y.view.node ∈ spine n) := by
  have hspine : n ∈ spine n := by cases n; simp [spine]
  have hb : StopSeg c (call env (beforeEvent e) n k c) (callsOf .before ⟨n, k, c.vc, sc⟩ (env.listeners (beforeEvent e)))
      (fun y => y.idx = 0 ∧ y.view.node ∈ spine n) := by
    obtain ⟨c3, ex, a1, a2, a3, a4, a5, a6, a7⟩ := call_stop env .before (beforeEvent e) n k c hc sc r hi _ rfl
    exact ⟨c3, ex, a1, a2, a3, a4, a5, fun y hy => ⟨(a6 y hy).1, by rw [(a6 y hy).2.2]; exact hspine⟩, a7⟩
  refine StopSeg.seq _ hb ?_
  intro c1 hr h1 h2 h3
  refine StopSeg.seq _ (hs c1 h1 h2 (call_seed hr) h3) ?_
  intro c2 _ k1 k2 k3
  obtain ⟨c3, ex, a1, a2, a3, a4, a5, a6, a7⟩ :=
    call_stop env .after (afterEvent e) n k c2 k3 sc r (by rw [k2, h2, hi]) _ (by rw [k1, h1])
  exact ⟨c3, ex, a1, a2, a3, a4, a5, fun y hy => ⟨(a6 y hy).1, by rw [(a6 y hy).2.2]; exact hspine⟩, a7⟩

/-! ## Scopes and contexts -/

theorem OkSeg.scoped {c : Ctx α σ} {v : VC α} {vr : List (VC α)} (hv : c.vc = v :: vr)
    (f : Ctx α σ → Option (Ctx α σ)) (L : List (Call α σ)) (n : Nat)
    (h : OkSeg (if v.node.info.newScope.getD true then { c with ids := c.seed :: c.ids, seed := c.seed + 1 } else c)
      (f (if v.node.info.newScope.getD true then { c with ids := c.seed :: c.ids, seed := c.seed + 1 } else c)) L n) :
    OkSeg c ((pushScope c).bind fun c => (f c).bind popScope) L (opensIf v.node.info + n) := by
  by_cases hn : v.node.info.newScope.getD true = true
  · simp only [hn, if_true] at h
    obtain ⟨c1, h1, h2, h3, h4⟩ := h
    refine ⟨{ c1 with ids := c.ids }, ?_, h2, rfl, ?_⟩
    · simp only [pushScope, hv, hn, if_true, Option.bind_some]
      simp only [hv] at h1
      rw [h1]
      simp only [Option.bind_some, popScope, h2, hv, hn, if_true, h3]
    · rcases h4 with ⟨a1, a2, a3⟩ | ⟨a1, a2⟩
      · refine .inl ⟨a1, ?_, a3⟩
        simp only [opensIf, hn, if_true] at a2 ⊢
        omega
      · exact .inr ⟨a1, a2⟩
  · simp only [hn, Bool.false_eq_true, if_false] at h
    obtain ⟨c1, h1, h2, h3, h4⟩ := h
    refine ⟨c1, ?_, h2, h3, ?_⟩
    · simp only [pushScope, hv, hn, Bool.false_eq_true, if_false, Option.bind_some]
      rw [h1]
      simp [popScope, h2, hv, hn]
    · simpa [opensIf, hn] using h4

theorem StopSeg.scoped {c : Ctx α σ} {v : VC α} {vr : List (VC α)} (hv : c.vc = v :: vr)
    (f : Ctx α σ → Option (Ctx α σ)) (L : List (Call α σ)) (Q : Call α σ → Prop)
    (h : StopSeg (if v.node.info.newScope.getD true then { c with ids := c.seed :: c.ids, seed := c.seed + 1 } else c)
      (f (if v.node.info.newScope.getD true then { c with ids := c.seed :: c.ids, seed := c.seed + 1 } else c)) L Q) :
    StopSeg c ((pushScope c).bind fun c => (f c).bind popScope) L Q := by
  by_cases hn : v.node.info.newScope.getD true = true
  · simp only [hn, if_true] at h
    obtain ⟨c1, ex, h1, h2, h3, h4, h5⟩ := h
    refine ⟨{ c1 with ids := c.ids }, ex, ?_, h2, rfl, h4, h5⟩
    simp only [pushScope, hv, hn, if_true, Option.bind_some]
    simp only [hv] at h1
    rw [h1]
    simp only [Option.bind_some, popScope, h2, hv, hn, if_true, h3]
  · simp only [hn, Bool.false_eq_true, if_false] at h
    obtain ⟨c1, ex, h1, h2, h3, h4⟩ := h
    refine ⟨c1, ex, ?_, h2, h3, h4⟩
    simp only [pushScope, hv, hn, Bool.false_eq_true, if_false, Option.bind_some]
    rw [h1]
    simp [popScope, h2, hv, hn]

theorem OkSeg.withVC {c : Ctx α σ} {env : Env α σ} {n : Tree α} {k : Key} (hne : c.vc ≠ [])
    (f : Ctx α σ → Option (Ctx α σ)) (L : List (Call α σ)) (m : Nat)
    (h : OkSeg { c with vc := ⟨n, pathOf env c.vc k⟩ :: c.vc } (f { c with vc := ⟨n, pathOf env c.vc k⟩ :: c.vc }) L m) :
    OkSeg c ((pushVC env n k c).bind fun c => (f c).bind popVC) L m := by
  obtain ⟨v, vr, hv⟩ := List.exists_cons_of_ne_nil hne
  obtain ⟨c1, h1, h2, h3, h4⟩ := h
  refine ⟨{ c1 with vc := c.vc }, ?_, rfl, h3, h4⟩
  simp only [pushVC, hv, Option.bind_some]
  simp only [pathOf, hv] at h1
  rw [h1]
  simp only [Option.bind_some, popVC, h2, hv]

theorem StopSeg.withVC {c : Ctx α σ} {env : Env α σ} {n : Tree α} {k : Key} (hne : c.vc ≠ [])
    (f : Ctx α σ → Option (Ctx α σ)) (L : List (Call α σ)) (Q : Call α σ → Prop)
    (h : StopSeg { c with vc := ⟨n, pathOf env c.vc k⟩ :: c.vc } (f { c with vc := ⟨n, pathOf env c.vc k⟩ :: c.vc }) L Q) :
    StopSeg c ((pushVC env n k c).bind fun c => (f c).bind popVC) L Q := by
  obtain ⟨v, vr, hv⟩ := List.exists_cons_of_ne_nil hne
  obtain ⟨c1, ex, h1, h2, h3, h4⟩ := h
  refine ⟨{ c1 with vc := c.vc }, ex, ?_, rfl, h3, h4⟩
  simp only [pushVC, hv, Option.bind_some]
  simp only [pathOf, hv] at h1
  rw [h1]
  simp only [Option.bind_some, popVC, h2, hv]

end Mole.Walk
