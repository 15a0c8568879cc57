import Verif.Parser.PrivateSpec

/-! # Lemmas for private names -/
namespace Mole.Parser.Pvt
open Spec

/-- Every pointer leads to an older scope, and only classes declare private names. -/
def WF (h : List Scope) : Prop :=
  ∀ (i : Nat) (s : Scope), h[i]? = some s → (∀ j, s.up = some j → j < i) ∧ (s.cls = none → s.refs = [])

def B (h : List Scope) (n i : Nat) : Option Nat := bindingOf h n (i + 1) i
def U (h : List Scope) (i : Nat) : Option Nat := upperCls h (i + 1) i
/-- The label of the class a name refers to, seen from scope `i`. -/
def L (h : List Scope) (n i : Nat) : Option Nat := (B h n i).bind fun i => h[i]?.bind (·.cls)

theorem bind_fuel {h : List Scope} (wf : WF h) (n : Nat) :
    ∀ i f, i < f → bindingOf h n f i = bindingOf h n (i + 1) i := by
  intro i
  induction i using Nat.strongRecOn with
  | _ i ih =>
    intro f hf
    obtain ⟨f, rfl⟩ : ∃ g, f = g + 1 := ⟨f - 1, by omega⟩
    rw [bindingOf, bindingOf]
    cases hs : h[i]? with
    | none => rfl
    | some s =>
      simp only
      split
      · rfl
      · cases hu : s.up with
        | none => rfl
        | some j =>
          have hj := (wf i s hs).1 j hu
          simp only
          rw [ih j hj f (by omega), ih j hj i hj]

theorem upper_fuel {h : List Scope} (wf : WF h) :
    ∀ i f, i < f → upperCls h f i = upperCls h (i + 1) i := by
  intro i
  induction i using Nat.strongRecOn with
  | _ i ih =>
    intro f hf
    obtain ⟨f, rfl⟩ : ∃ g, f = g + 1 := ⟨f - 1, by omega⟩
    rw [upperCls, upperCls]
    cases hs : h[i]? with
    | none => rfl
    | some s =>
      simp only
      split
      · rfl
      · cases hu : s.up with
        | none => rfl
        | some j =>
          have hj := (wf i s hs).1 j hu
          simp only
          rw [ih j hj f (by omega), ih j hj i hj]

theorem B_eq {h : List Scope} (wf : WF h) (n : Nat) {i : Nat} {s : Scope} (hs : h[i]? = some s) :
    B h n i = if s.refs.contains n then some i else s.up.bind (B h n) := by
  rw [B, bindingOf, hs]
  simp only
  split
  · rfl
  · cases hu : s.up with
    | none => rfl
    | some j => exact bind_fuel wf n j i ((wf i s hs).1 j hu)

theorem U_eq {h : List Scope} (wf : WF h) {i : Nat} {s : Scope} (hs : h[i]? = some s) :
    U h i = if s.cls.isSome then some i else s.up.bind (U h) := by
  rw [U, upperCls, hs]
  simp only
  split
  · rfl
  · cases hu : s.up with
    | none => rfl
    | some j => exact upper_fuel wf j i ((wf i s hs).1 j hu)

theorem B_out {h : List Scope} (n : Nat) {i : Nat} (hs : h[i]? = none) : B h n i = none := by
  rw [B, bindingOf, hs]

theorem U_out {h : List Scope} {i : Nat} (hs : h[i]? = none) : U h i = none := by
  rw [U, upperCls, hs]

/-- The search may begin at the class. -/
theorem B_upper {h : List Scope} (wf : WF h) (n : Nat) : ∀ i,
    (∀ c, U h i = some c → B h n i = B h n c) ∧ (U h i = none → B h n i = none) := by
  intro i
  induction i using Nat.strongRecOn with
  | _ i ih =>
    cases hs : h[i]? with
    | none => rw [U_out hs, B_out n hs]; exact ⟨nofun, fun _ => rfl⟩
    | some s =>
      rw [U_eq wf hs]
      split
      · exact ⟨fun c hc => by cases hc; rfl, nofun⟩
      · rename_i hc
        have hr := (wf i s hs).2 (by simpa using hc)
        rw [B_eq wf n hs, hr]
        cases hu : s.up with
        | none => exact ⟨nofun, fun _ => rfl⟩
        | some j =>
          have := ih j ((wf i s hs).1 j hu)
          exact this

/-- `H` has the scopes of `h`, with the same pointers and flags. -/
def Ext (h H : List Scope) : Prop :=
  ∀ (i : Nat) (s : Scope), h[i]? = some s → ∃ s' : Scope, H[i]? = some s' ∧ s'.up = s.up ∧ s'.cls = s.cls

theorem Ext.refl (h : List Scope) : Ext h h := fun _ s hs => ⟨s, hs, rfl, rfl⟩

theorem U_ext {h H : List Scope} (wf : WF h) (wF : WF H) (e : Ext h H) : ∀ i, i < h.length →
    U h i = U H i := by
  intro i
  induction i using Nat.strongRecOn with
  | _ i ih =>
    intro hi
    have hs : h[i]? = some h[i] := List.getElem?_eq_getElem hi
    obtain ⟨s', hs', hu, hc⟩ := e i _ hs
    rw [U_eq wf hs, U_eq wF hs', hu, hc]
    split
    · rfl
    · cases hj : (h[i]).up with
      | none => rfl
      | some j => exact ih j ((wf i _ hs).1 j hj) (by have := (wf i _ hs).1 j hj; omega)

/-- `new` is in `H` from place `k` on. -/
def Holds (H : List Scope) (k : Nat) (new : List Scope) : Prop :=
  ∀ (i : Nat) (s : Scope), new[i]? = some s → H[k + i]? = some s

theorem Holds.left {H : List Scope} {k : Nat} {a b : List Scope} (h : Holds H k (a ++ b)) :
    Holds H k a := fun i s hs => h i s (by
  rw [List.getElem?_append_left]
  · exact hs
  · exact (List.getElem?_eq_some_iff.mp hs).1)

theorem Holds.right {H : List Scope} {k : Nat} {a b : List Scope} (h : Holds H k (a ++ b)) :
    Holds H (k + a.length) b := fun i s hs => by
  rw [Nat.add_assoc]
  exact h (a.length + i) s (by rw [List.getElem?_append_right (by omega)]; simpa using hs)

theorem Ext.append {h H new : List Scope} (e : Ext h H) (hn : Holds H h.length new) :
    Ext (h ++ new) H := by
  intro i s hs
  by_cases hi : i < h.length
  · rw [List.getElem?_append_left hi] at hs; exact e i s hs
  · rw [List.getElem?_append_right (by omega)] at hs
    refine ⟨s, ?_, rfl, rfl⟩
    have := hn _ s hs
    rwa [show h.length + (i - h.length) = i by omega] at this

theorem Ext.set {h H : List Scope} {k : Nat} {s : Scope} {r : List Nat} (e : Ext h H)
    (hk : h[k]? = some s) : Ext (h.set k { s with refs := r }) H := by
  intro i x hx
  by_cases hi : k = i
  · subst hi
    rw [List.getElem?_set_self (List.getElem?_eq_some_iff.mp hk).1] at hx
    cases hx
    exact e k s hk
  · rw [List.getElem?_set_ne hi] at hx; exact e i x hx

theorem wf_append {h : List Scope} {u : Nat} {c : Option Nat} (wf : WF h) (hu : u < h.length) :
    WF (h ++ [⟨some u, c, []⟩]) := by
  intro i s hs
  by_cases hi : i < h.length
  · rw [List.getElem?_append_left hi] at hs; exact wf i s hs
  · rw [List.getElem?_append_right (by omega)] at hs
    have : i - h.length = 0 := by
      have := (List.getElem?_eq_some_iff.mp hs).1
      simpa using this
    rw [this] at hs
    cases hs
    exact ⟨fun j hj => by cases hj; omega, fun _ => rfl⟩

theorem wf_set {h : List Scope} {k : Nat} {s : Scope} {r : List Nat} (wf : WF h) (hk : h[k]? = some s)
    (hc : s.cls ≠ none) : WF (h.set k { s with refs := r }) := by
  intro i x hx
  by_cases hi : k = i
  · subst hi
    rw [List.getElem?_set_self (List.getElem?_eq_some_iff.mp hk).1] at hx
    cases hx
    exact ⟨(wf k s hk).1, fun h => absurd h hc⟩
  · rw [List.getElem?_set_ne hi] at hx; exact wf i x hx

theorem run_append (s : St) : ∀ a b, run s (a ++ b) = (run s a).bind fun s' => run s' b := by
  intro a
  induction a generalizing s with
  | nil => intro b; rfl
  | cons e a ih =>
    intro b
    rw [List.cons_append, run, run]
    cases step s e with
    | none => rfl
    | some s' => exact ih s' b

theorem resolveAll_append (H : List Scope) : ∀ a b,
    resolveAll H (a ++ b) = (resolveAll H a).bind fun x => (resolveAll H b).bind fun y => some (x ++ y) := by
  intro a
  induction a with
  | nil => intro b; cases h : resolveAll H b <;> simp [resolveAll, h]
  | cons u a ih =>
    intro b
    rw [List.cons_append, resolveAll, resolveAll, ih]
    cases resolve H u <;> cases resolveAll H a <;> cases resolveAll H b <;> rfl

/-- From scope `i` the names mean what they mean in `env`. -/
def Sees (H : List Scope) (i : Nat) (env : Env) : Prop := ∀ n, L H n i = lookup n env

theorem resolve_eq (H : List Scope) (u : Use) :
    resolve H u = (L H u.name u.scope).map fun c => (u.id, c) := by
  rw [resolve, L]
  change (match B H u.name u.scope with | some i => _ | none => _) = _
  cases B H u.name u.scope with
  | none => rfl
  | some i =>
    simp only [Option.bind_some]
    rcases H[i]? with _ | ⟨_, _ | _, _⟩ <;> rfl

theorem Sees.scope {H : List Scope} {i k : Nat} {env : Env} (wf : WF H) (h : Sees H i env)
    (hk : H[k]? = some ⟨some i, none, []⟩) : Sees H k env := by
  intro n
  rw [← h n, L, L, B_eq wf n hk]
  rfl

theorem lookup_cons (n : Nat) (l : Nat) (ns : List Nat) (env : Env) :
    lookup n ((l, ns) :: env) = if ns.contains n then some l else lookup n env := by
  rw [lookup, List.find?_cons]
  cases h : ns.contains n <;> simp [lookup]

theorem Sees.cls {H : List Scope} {i k l : Nat} {ns rs : List Nat} {env : Env} (wf : WF H)
    (h : Sees H i env) (hk : H[k]? = some ⟨some i, some l, rs⟩) (hn : ∀ n, n ∈ rs ↔ n ∈ ns) :
    Sees H k ((l, ns) :: env) := by
  intro n
  rw [lookup_cons, ← h n, L, L, B_eq wf n hk]
  have : rs.contains n = ns.contains n := by
    rw [Bool.eq_iff_iff]; simp [hn]
  simp only [this]
  split
  · simp [hk]
  · rfl

/-- What running some events from `s` comes to: an error, there being no class around, or a heap with new
scopes at the end and new uses, which are resolved later as `links` says. -/
def Outcome (s : St) (cur' : List Scope) (r : Option St) (links : Env → Option (List (Nat × Nat))) : Prop :=
  (r = none ∧ U s.heap s.cur = none ∧ ∀ env, (∀ n, lookup n env = none) → links env = none) ∨
  (∃ new us, r = some ⟨cur' ++ new, s.cur, s.dangling ++ us⟩ ∧ WF (cur' ++ new) ∧
    ∀ H env, WF H → Holds H cur'.length new → Ext s.heap H → Sees H s.cur env →
      resolveAll H us = links env)

theorem Outcome.seq {s : St} {r : Option St} {f g : Env → Option (List (Nat × Nat))} {es : List Ev}
    (h1 : Outcome s s.heap r f) (hc : s.cur < s.heap.length) (wf : WF s.heap)
    (h2 : ∀ s', s'.cur = s.cur → WF s'.heap → s.cur < s'.heap.length →
      Outcome s' s'.heap (run s' es) g) :
    Outcome s s.heap (r.bind fun s' => run s' es) fun env => (f env).bind fun a => (g env).bind fun b => some (a ++ b) := by
  rcases h1 with ⟨rfl, hu, hf⟩ | ⟨new, us, rfl, wf1, h1⟩
  · exact .inl ⟨rfl, hu, fun env he => by simp only; rw [hf env he]; rfl⟩
  · have hl : s.cur < (s.heap ++ new).length := by rw [List.length_append]; omega
    rcases h2 ⟨s.heap ++ new, s.cur, s.dangling ++ us⟩ rfl wf1 hl with ⟨hr, hu, hg⟩ | ⟨new2, us2, hr, wf2, h2⟩
    · refine .inl ⟨hr, ?_, fun env he => ?_⟩
      · rw [← hu]
        refine U_ext wf wf1 ?_ _ hc
        intro i x hx
        exact ⟨x, by
          rw [List.getElem?_append_left (List.getElem?_eq_some_iff.mp hx).1]
          exact hx, rfl, rfl⟩
      · simp only; rw [hg env he]; cases f env <;> rfl
    · refine .inr ⟨new ++ new2, us ++ us2, ?_, ?_, ?_⟩
      · rw [Option.bind_some, hr]; simp [List.append_assoc]
      · rw [← List.append_assoc]; exact wf2
      · intro H env wH hH e hs
        rw [resolveAll_append, h1 H env wH hH.left e hs,
          h2 H env wH (by rw [List.length_append]; exact hH.right) (e.append hH.left) hs]

theorem U_class {h : List Scope} (wf : WF h) {i l : Nat} {u : Option Nat} {rs : List Nat}
    (hs : h[i]? = some ⟨u, some l, rs⟩) : U h i = some i := by
  rw [U_eq wf hs]; rfl

/-- Entering a scope, doing something in it, and leaving it. -/
theorem Outcome.enclose {s : St} {c : Option Nat} {rs : List Nat} {f g : Env → Option (List (Nat × Nat))}
    {r : Option St} (wf : WF s.heap) (hc : s.cur < s.heap.length)
    (h : Outcome ⟨s.heap ++ [⟨some s.cur, c, []⟩], s.heap.length, s.dangling⟩
      (s.heap ++ [⟨some s.cur, c, rs⟩]) r f)
    (hn : c = none → ∀ env, f env = g env)
    (hg : ∀ H env, WF H → H[s.heap.length]? = some ⟨some s.cur, c, rs⟩ → Sees H s.cur env →
      ∃ env', Sees H s.heap.length env' ∧ f env' = g env) :
    Outcome s s.heap (r.bind fun s' => run s' [.leave]) g := by
  have wf1 := wf_append (c := c) wf hc
  rcases h with ⟨rfl, hu, hf⟩ | ⟨new, us, rfl, wf2, h⟩
  · have hk : (s.heap ++ [⟨some s.cur, c, []⟩])[s.heap.length]? = some ⟨some s.cur, c, []⟩ := by simp
    cases c with
    | some l => rw [U_class wf1 hk] at hu; cases hu
    | none =>
      refine .inl ⟨rfl, ?_, fun env he => by rw [← hn rfl env, hf env he]⟩
      rw [U_eq wf1 hk] at hu
      rw [U_ext wf wf1 ?_ _ hc]
      · exact hu
      · intro i x hx
        exact ⟨x, by
          rw [List.getElem?_append_left (List.getElem?_eq_some_iff.mp hx).1]
          exact hx, rfl, rfl⟩
  · refine .inr ⟨⟨some s.cur, c, rs⟩ :: new, us, ?_, by simpa using wf2, ?_⟩
    · simp [run, step]
    · intro H env wH hH e hs
      have hk : H[s.heap.length]? = some ⟨some s.cur, c, rs⟩ := hH 0 _ rfl
      obtain ⟨env', hs', he⟩ := hg H env wH hk hs
      rw [← he]
      refine h H env' wH ?_ ?_ hs'
      · have : Holds H s.heap.length ([⟨some s.cur, c, rs⟩] ++ new) := hH
        rw [List.length_append]
        exact this.right
      · intro i x hx
        by_cases hi : i < s.heap.length
        · rw [List.getElem?_append_left hi] at hx; exact e i x hx
        · rw [List.getElem?_append_right (by omega)] at hx
          have h0 : i - s.heap.length = 0 := by
            have := (List.getElem?_eq_some_iff.mp hx).1
            simpa using this
          rw [h0] at hx
          have hi : i = s.heap.length := by omega
          cases hx
          exact ⟨⟨some s.cur, c, rs⟩, hi ▸ hk, rfl, rfl⟩

theorem leave_nil (s : St) : run s [] = some s := rfl

mutual
theorem run_item : ∀ (i : Item) (s : St), WF s.heap → s.cur < s.heap.length →
    Outcome s s.heap (run s (events i)) fun env => links env i
  | .use u n, s, wf, hc => by
    rw [events, run, step]
    change Outcome s s.heap (match (match U s.heap s.cur with | none => _ | some c => _) with
      | some s' => run s' [] | none => none) _
    cases hu : U s.heap s.cur with
    | none =>
      refine .inl ⟨rfl, hu, fun env he => ?_⟩
      simp only [links, he n]; rfl
    | some c =>
      refine .inr ⟨[], [⟨u, n, c⟩], by simp [run], by simpa using wf, ?_⟩
      intro H env wH _ e hs
      have hb := (B_upper wH n s.cur).1 c (by rw [← U_ext wf wH e _ hc]; exact hu)
      simp only [resolveAll, resolve_eq, links]
      rw [← hs n, L, L, hb]
      cases (B H n c).bind _ <;> rfl
  | .scope b, s, wf, hc => by
    rw [events, List.cons_append, run, step]
    simp only
    rw [run_append]
    refine Outcome.enclose wf hc (rs := []) (run_items b _ (wf_append wf hc) (by simp)) ?_ ?_
    · intro _ env; rw [links]
    · intro H env wH hk hs
      exact ⟨env, hs.scope wH hk, by rw [links]⟩
  | .cls l h es, s, wf, hc => by
    rw [events, List.append_assoc, run_append]
    have := Outcome.seq (es := .enter (some l) :: eventsElems es ++ [.leave])
      (g := fun env => linksElems ((l, es.names) :: env) es) (run_items h s wf hc) hc wf ?_
    · simp only [links]
      exact this
    · intro s' h1 wf' hc'
      rw [← h1] at hc'
      rw [List.cons_append, run, step]
      simp only
      rw [run_append]
      have key := run_elems es ⟨s'.heap ++ [⟨some s'.cur, some l, []⟩], s'.heap.length, s'.dangling⟩
        (some s'.cur) l [] (wf_append wf' hc') (by simp)
      simp only [List.append_nil] at key
      rw [show (s'.heap ++ [(⟨some s'.cur, some l, []⟩ : Scope)]).set s'.heap.length
          ⟨some s'.cur, some l, es.names.reverse⟩ =
          s'.heap ++ [⟨some s'.cur, some l, es.names.reverse⟩] by
        rw [List.set_append_right _ _ (Nat.le_refl _)]; simp] at key
      refine Outcome.enclose wf' hc' key nofun ?_
      intro H env wH hk hs
      exact ⟨_, hs.cls wH hk (fun n => by simp), rfl⟩
theorem run_items : ∀ (is : Items) (s : St), WF s.heap → s.cur < s.heap.length →
    Outcome s s.heap (run s (eventsAll is)) fun env => linksAll env is
  | .nil, s, wf, hc => by
    rw [eventsAll]
    exact .inr ⟨[], [], by simp [run], by simpa using wf, fun H env _ _ _ _ => rfl⟩
  | .cons i is, s, wf, hc => by
    rw [eventsAll, run_append]
    have := Outcome.seq (es := eventsAll is) (g := fun env => linksAll env is) (run_item i s wf hc) hc wf
      fun s' h wf' hc' => run_items is s' wf' (h ▸ hc')
    simp only [linksAll]
    exact this
theorem run_elems : ∀ (es : Elems) (s : St) (up : Option Nat) (l : Nat) (rs : List Nat), WF s.heap →
    s.heap[s.cur]? = some ⟨up, some l, rs⟩ →
    Outcome s (s.heap.set s.cur ⟨up, some l, es.names.reverse ++ rs⟩) (run s (eventsElems es))
      fun env => linksElems env es
  | .nil, s, up, l, rs, wf, hk => by
    rw [eventsElems]
    have : s.heap.set s.cur ⟨up, some l, rs⟩ = s.heap := by
      have ⟨h1, h2⟩ := List.getElem?_eq_some_iff.mp hk
      rw [← h2]; exact List.set_getElem_self h1
    refine .inr ⟨[], [], ?_, ?_, fun H env _ _ _ _ => rfl⟩
    · simp [run, Elems.names, this]
    · simpa [Elems.names, this] using wf
  | .cons c n es, s, up, l, rs, wf, hk => by
    have hc := (List.getElem?_eq_some_iff.mp hk).1
    have hev : eventsElems (.cons c n es) =
        eventsAll c ++ ((match n with | some n => [.declare n] | none => []) ++ eventsElems es) := by
      cases n <;> simp [eventsElems]
    rw [hev, run_append]
    rcases run_items c s wf hc with ⟨_, hu, _⟩ | ⟨new, us, hr, wf1, h1⟩
    · rw [U_class wf hk] at hu; cases hu
    rw [hr, Option.bind_some]
    have hk1 : (s.heap ++ new)[s.cur]? = some ⟨up, some l, rs⟩ := by
      rw [List.getElem?_append_left hc]; exact hk
    -- the state after the declaration
    obtain ⟨rs', hd, hrs⟩ : ∃ rs', run ⟨s.heap ++ new, s.cur, s.dangling ++ us⟩
        ((match n with | some n => [Ev.declare n] | none => []) ++ eventsElems es) =
        run ⟨(s.heap ++ new).set s.cur ⟨up, some l, rs'⟩, s.cur, s.dangling ++ us⟩ (eventsElems es) ∧
        es.names.reverse ++ rs' = (Elems.cons c n es).names.reverse ++ rs := by
      cases n with
      | none =>
        refine ⟨rs, ?_, rfl⟩
        have ⟨h1, h2⟩ := List.getElem?_eq_some_iff.mp hk1
        rw [← h2, List.set_getElem_self h1]; rfl
      | some n =>
        refine ⟨n :: rs, ?_, by simp [Elems.names]⟩
        rw [List.cons_append, List.nil_append, run, step]
        simp only [hk1]
    rw [hd]
    have hk2 : ((s.heap ++ new).set s.cur ⟨up, some l, rs'⟩)[s.cur]? = some ⟨up, some l, rs'⟩ := by
      rw [List.getElem?_set_self (by rw [List.length_append]; omega)]
    have wf2 : WF ((s.heap ++ new).set s.cur ⟨up, some l, rs'⟩) := wf_set wf1 hk1 nofun
    rcases run_elems es ⟨(s.heap ++ new).set s.cur ⟨up, some l, rs'⟩, s.cur, s.dangling ++ us⟩ up l rs'
      wf2 hk2 with ⟨_, hu, _⟩ | ⟨new2, us2, hr2, wf3, h2⟩
    · rw [U_class wf2 hk2] at hu; cases hu
    have hset : (((s.heap ++ new).set s.cur ⟨up, some l, rs'⟩).set s.cur
        ⟨up, some l, es.names.reverse ++ rs'⟩) =
        s.heap.set s.cur ⟨up, some l, (Elems.cons c n es).names.reverse ++ rs⟩ ++ new := by
      rw [List.set_set, hrs, List.set_append_left _ _ hc]
    rw [hset] at hr2 wf3 h2
    refine .inr ⟨new ++ new2, us ++ us2, ?_, ?_, ?_⟩
    · rw [hr2]; simp [List.append_assoc]
    · rw [← List.append_assoc]; exact wf3
    · intro H env wH hH e hs
      rw [List.length_set] at hH
      have e1 := e.append hH.left
      simp only [linksElems]
      rw [resolveAll_append, h1 H env wH hH.left e hs, h2 H env wH ?_ (e1.set hk1) hs]
      · rfl
      · rw [List.length_append, List.length_set]; exact hH.right
end

end Mole.Parser.Pvt
