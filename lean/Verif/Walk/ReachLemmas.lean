import Verif.Walk.AstSpec
import Verif.Walk.Access
import Verif.Walk.Props

/-! The tree as the visitors see it has the same nodes, when nothing is off the walk. -/

namespace Mole.Walk

open Spec

variable {α σ : Type}

/-! ## The tables -/

/-- The visitors' slots which are not fields of their own. -/
def special (typ : Nat) (d : SlotDecl) : Bool :=
  (typ == N_TS_TYP_DEC && d == ⟨"TypParams", false⟩) || (typ == N_TS_REF && d == ⟨"Args", true⟩)

def visible (d : SlotDecl) : Bool := !offWalk.contains d.name

set_option maxRecDepth 1000000 in
theorem table_ok : ∀ r ∈ declaredRows,
    ((visitedSlots r.1).filter (fun d => !special r.1 d)).isPerm (r.2.filter visible) = true ∧ (r.2.map (·.name)).Nodup ∧
      (r.1 = N_EXPR_PAREN → r.2 = [⟨"Expr", false⟩]) := by
  decide +kernel

theorem declared_mem {typ : Nat} {ds : List SlotDecl} (h : declared typ = some ds) : (typ, ds) ∈ declaredRows := by
  simp only [declared, Option.map_eq_some_iff] at h
  obtain ⟨⟨a, b⟩, h1, h2⟩ := h
  have := List.find?_some h1
  have hm := List.mem_of_find?_eq_some h1
  simp only [beq_iff_eq] at this h2
  subst this; subst h2
  exact hm

/-! ## The infos -/

def infos (l : List (Tree α)) : List (Info α) := l.map Tree.info

theorem infos_append (a b : List (Tree α)) : infos (a ++ b) = infos a ++ infos b := by simp [infos]

/-- What is in the slot of a declaration. -/
def content (s : Slots α) (d : SlotDecl) : List (Info α) :=
  if d.many then infos (nodesL (findMany d.name s)) else infos (nodesO (findOne d.name s))

theorem content_cons_one (k : String) (o : OTree α) (rest : Slots α) (d : SlotDecl) (h : d.name ≠ k) :
    content (.one k o rest) d = content rest d := by
  simp [content, findOne, findMany, Ne.symm h]

theorem content_cons_many (k : String) (o : Trees α) (rest : Slots α) (d : SlotDecl) (h : d.name ≠ k) :
    content (.many k o rest) d = content rest d := by
  simp [content, findOne, findMany, Ne.symm h]

theorem flatMap_congr' {β γ : Type} {l : List β} {f g : β → List γ} (h : ∀ x ∈ l, f x = g x) : l.flatMap f = l.flatMap g := by
  induction l with
  | nil => rfl
  | cons a l ih =>
    rw [List.flatMap_cons, List.flatMap_cons, h a (by simp), ih (fun x hx => h x (by simp [hx]))]

theorem infos_slots : ∀ (s : Slots α), ((slotDecls s).map (·.name)).Nodup →
    infos (nodesS s) = (slotDecls s).flatMap (content s)
  | .nil, _ => rfl
  | .one k o rest, h => by
    simp only [slotDecls, List.map_cons, List.nodup_cons] at h
    simp only [nodesS, infos_append, slotDecls, List.flatMap_cons]
    rw [infos_slots rest h.2]
    congr 1
    · simp [content, findOne]
    · refine flatMap_congr' (fun d hd => (content_cons_one k o rest d ?_).symm)
      intro he; exact h.1 (he ▸ List.mem_map_of_mem hd)
  | .many k o rest, h => by
    simp only [slotDecls, List.map_cons, List.nodup_cons] at h
    simp only [nodesS, infos_append, slotDecls, List.flatMap_cons]
    rw [infos_slots rest h.2]
    congr 1
    · simp [content, findMany]
    · refine flatMap_congr' (fun d hd => (content_cons_many k o rest d ?_).symm)
      intro he; exact h.1 (he ▸ List.mem_map_of_mem hd)

theorem flatMap_filter_nil {β γ : Type} (p : β → Bool) {l : List β} {f : β → List γ} (h : ∀ x ∈ l, p x = false → f x = []) :
    (l.filter p).flatMap f = l.flatMap f := by
  induction l with
  | nil => rfl
  | cons a l ih =>
    have ih' := ih (fun x hx => h x (by simp [hx]))
    by_cases hp : p a = true
    · rw [List.filter_cons_of_pos hp, List.flatMap_cons, List.flatMap_cons, ih']
    · rw [List.filter_cons_of_neg hp, List.flatMap_cons, h a (by simp) (by simpa using hp), ih']; rfl

/-- What a visitor's slot gives. -/
def given (typ : Nat) (s : Slots α) (d : SlotDecl) : List (Info α) :=
  if d.many then infos (nodesL (getMany typ d.name s)) else infos (nodesO (getOne typ d.name s))

theorem infos_pick (typ : Nat) (s : Slots α) : ∀ ds, infos (nodesS (pick typ s ds)) = ds.flatMap (given typ s)
  | [] => rfl
  | d :: ds => by
    rw [pick, List.flatMap_cons]
    by_cases hm : d.many = true
    · rw [if_pos hm, nodesS, infos_append, infos_pick typ s ds, given, if_pos hm]
    · rw [if_neg hm, nodesS, infos_append, infos_pick typ s ds, given, if_neg hm]

theorem empty_one (name : String) : ∀ (s : Slots α), emptyAt name s → findOne name s = .none
  | .nil, _ => rfl
  | .one k o rest, h => by
    simp only [findOne]; split
    · next hk => exact h.1 hk
    · exact empty_one name rest h.2
  | .many _ _ rest, h => by simpa only [findOne] using empty_one name rest h.2

theorem empty_many (name : String) : ∀ (s : Slots α), emptyAt name s → findMany name s = .nil
  | .nil, _ => rfl
  | .one k o rest, h => by simpa only [findMany] using empty_many name rest h.2
  | .many k _ rest, h => by
    simp only [findMany]; split
    · next hk => exact h.1 hk
    · exact empty_many name rest h.2

theorem empty_seen (name : String) : ∀ (s : Slots α), emptyAt name s → emptyAt name (seenS s)
  | .nil, h => h
  | .one k o rest, h => ⟨fun hk => by rw [h.1 hk]; rfl, empty_seen name rest h.2⟩
  | .many k o rest, h => ⟨fun hk => by rw [h.1 hk]; rfl, empty_seen name rest h.2⟩

theorem decls_seen : ∀ (s : Slots α), slotDecls (seenS s) = slotDecls s
  | .nil => rfl
  | .one k o rest => by simp only [seenS, slotDecls, decls_seen rest]
  | .many k o rest => by simp only [seenS, slotDecls, decls_seen rest]

theorem seen_info (t : Tree α) : (seen t).info = t.info := by cases t; rfl

theorem isA_seen (typ : Nat) (o : OTree α) : isA typ (seenO o) ↔ isA typ o := by
  cases o with
  | none => exact Iff.rfl
  | some t => simp [seenO, isA, seen_info]

theorem paren_seen : ∀ (s : Slots α), parenInside (seenS s) ↔ parenInside s
  | .nil => Iff.rfl
  | .one k o rest => by simp only [seenS, parenInside, isA_seen, paren_seen rest]
  | .many k o rest => by simp only [seenS, parenInside, paren_seen rest]

theorem paren_find : ∀ (s : Slots α), ¬ parenInside s → ¬ isA N_EXPR_PAREN (findOne "Expr" s)
  | .nil, _ => id
  | .one k o rest, h => by
    simp only [parenInside, not_or, not_and] at h
    simp only [findOne]; split
    · next hk => exact h.1 hk
    · exact paren_find rest h.2
  | .many _ _ rest, h => by simpa only [findOne] using paren_find rest h

theorem unparen_id (o : OTree α) (h : ¬ isA N_EXPR_PAREN o) : unparen o = o := by
  cases o with
  | none => rfl
  | some t =>
    cases t with
    | mk i s => simp only [unparen]; exact if_neg h

/-- One node: what its visitor gives is what is in its fields. -/
theorem pick_perm (i : Info α) (s : Slots α) (hd : declared i.typ = some (slotDecls s)) (he : ∀ name ∈ offWalk, emptyAt name s)
    (hp : i.typ = N_EXPR_PAREN → ¬ parenInside s) :
    (infos (nodesS (pick i.typ s (visitedSlots i.typ)))).Perm (infos (nodesS s)) := by
  obtain ⟨h1, h2, h3⟩ := table_ok _ (declared_mem hd)
  simp only at h1 h2 h3
  rw [infos_pick, infos_slots s h2]
  have e1 : (visitedSlots i.typ).flatMap (given i.typ s) = ((visitedSlots i.typ).filter (fun d => !special i.typ d)).flatMap (given i.typ s) := by
    refine (flatMap_filter_nil _ (fun d _ hs => ?_)).symm
    simp only [Bool.not_eq_false', special, Bool.or_eq_true, Bool.and_eq_true, beq_iff_eq] at hs
    rcases hs with ⟨ht, hn⟩ | ⟨ht, hn⟩
    · have h0 := empty_one _ s (he "TypInfo.TypParams" (by decide))
      simp [given, getOne, ht, hn, h0, nodesO, infos, show ¬ N_TS_TYP_DEC = N_EXPR_PAREN by decide]
    · have h0 := empty_one _ s (he "ParamsInst" (by decide))
      simp [given, getMany, ht, hn, h0, nodesL, infos]
  have e2 : ((visitedSlots i.typ).filter (fun d => !special i.typ d)).flatMap (given i.typ s) =
      ((visitedSlots i.typ).filter (fun d => !special i.typ d)).flatMap (content s) := by
    refine flatMap_congr' (fun d hd' => ?_)
    obtain ⟨hd1, hd2⟩ := List.mem_filter.1 hd'
    simp only [Bool.not_eq_true', special, Bool.or_eq_false_iff, Bool.and_eq_false_iff, beq_eq_false_iff_ne] at hd2
    have hv : d ∈ slotDecls s := (List.mem_filter.1 ((List.isPerm_iff.1 h1).mem_iff.1 hd')).1
    obtain ⟨n, m⟩ := d
    cases m with
    | true =>
      have : ¬ (i.typ = N_TS_REF ∧ n = "Args") := by
        rintro ⟨h4, h5⟩; subst h5; exact hd2.2.elim (fun h => h h4) (fun h => h rfl)
      simp only [given, content, if_true, getMany, if_neg this]
    | false =>
      have : ¬ (i.typ = N_TS_TYP_DEC ∧ n = "TypParams") := by
        rintro ⟨h4, h5⟩; subst h5; exact hd2.1.elim (fun h => h h4) (fun h => h rfl)
      simp only [given, content, Bool.false_eq_true, if_false, getOne, if_neg this]
      split
      · next ht =>
        rw [h3 ht] at hv
        simp only [List.mem_singleton, SlotDecl.mk.injEq, and_true] at hv
        rw [hv, unparen_id _ (paren_find s (hp ht))]
      · rfl
  rw [e1, e2, ← flatMap_filter_nil visible (l := slotDecls s) (f := content s)]
  · exact (List.isPerm_iff.1 h1).flatMap_right _
  · intro d _ hv
    have : d.name ∈ offWalk := by simpa [visible] using hv
    have he' := he _ this
    simp [content, empty_one _ s he', empty_many _ s he', nodesO, nodesL, infos]

theorem declared_child {i : Info α} {s : Slots α} (h : Declared (.mk i s)) :
    declared i.typ = some (slotDecls s) ∧ ∀ j r, Tree.mk j r ∈ nodesS s → declared j.typ = some (slotDecls r) :=
  ⟨h i s (self_nodes _), fun j r hm => h j r (by rw [nodes]; exact List.mem_cons_of_mem _ hm)⟩

/-- Nodes as declared and with nothing off the walk. -/
def Fine (l : List (Tree α)) : Prop :=
  ∀ i s, Tree.mk i s ∈ l → declared i.typ = some (slotDecls s) ∧ (∀ name ∈ offWalk, emptyAt name s) ∧
    (i.typ = N_EXPR_PAREN → ¬ parenInside s)

theorem fine_left {a b : List (Tree α)} (h : Fine (a ++ b)) : Fine a := fun i s hm => h i s (List.mem_append_left _ hm)
theorem fine_right {a b : List (Tree α)} (h : Fine (a ++ b)) : Fine b := fun i s hm => h i s (List.mem_append_right _ hm)

mutual
theorem seen_perm : ∀ (t : Tree α), Fine (nodes t) → (infos (nodes (seen t))).Perm (infos (nodes t))
  | .mk i s, h => by
    obtain ⟨h1, h2, h3⟩ := h i s (self_nodes _)
    have hs : Fine (nodesS s) := fun j r hm => h j r (by rw [nodes]; exact List.mem_cons_of_mem _ hm)
    rw [seen, nodes, nodes, infos, infos, List.map_cons, List.map_cons]
    refine List.Perm.cons _ ?_
    exact (pick_perm i (seenS s) (by rw [decls_seen]; exact h1) (fun n hn => empty_seen n s (h2 n hn))
      (fun ht hc => h3 ht ((paren_seen s).1 hc))).trans (seenS_perm s hs)
theorem seenS_perm : ∀ (s : Slots α), Fine (nodesS s) → (infos (nodesS (seenS s))).Perm (infos (nodesS s))
  | .nil, _ => List.Perm.refl _
  | .one k o rest, h => by
    rw [seenS, nodesS, nodesS, infos_append, infos_append]
    exact (seenO_perm o (fine_left h)).append (seenS_perm rest (fine_right h))
  | .many k ts rest, h => by
    rw [seenS, nodesS, nodesS, infos_append, infos_append]
    exact (seenL_perm ts (fine_left h)).append (seenS_perm rest (fine_right h))
theorem seenO_perm : ∀ (o : OTree α), Fine (nodesO o) → (infos (nodesO (seenO o))).Perm (infos (nodesO o))
  | .none, _ => List.Perm.refl _
  | .some t, h => by rw [seenO, nodesO, nodesO]; exact seen_perm t h
theorem seenL_perm : ∀ (ts : Trees α), Fine (nodesL ts) → (infos (nodesL (seenL ts))).Perm (infos (nodesL ts))
  | .nil, _ => List.Perm.refl _
  | .cons o rest, h => by
    rw [seenL, nodesL, nodesL, infos_append, infos_append]
    exact (seenO_perm o (fine_left h)).append (seenL_perm rest (fine_right h))
end

/-! ## What the listeners are told -/

/-- Nodes without a visitor, or whose visitor looks at no children, have none. -/
def Leafy (env : Env α σ) (l : List (Tree α)) : Prop :=
  ∀ t ∈ l, (env.visitors t.info.typ = none ∨ ∃ r, env.visitors t.info.typ = some r ∧ r.shape = .atom) → nodes t = [t]

theorem leafy_left {env : Env α σ} {a b : List (Tree α)} (h : Leafy env (a ++ b)) : Leafy env a :=
  fun t ht => h t (List.mem_append_left _ ht)
theorem leafy_right {env : Env α σ} {a b : List (Tree α)} (h : Leafy env (a ++ b)) : Leafy env b :=
  fun t ht => h t (List.mem_append_right _ ht)

/-- The nodes for which the calls are made. -/
def callees (L : List (Call α σ)) : List (Info α) := L.map (fun x => x.view.node.info)

theorem callees_append (a b : List (Call α σ)) : callees (a ++ b) = callees a ++ callees b := by simp [callees]

/-- The nodes with a visitor. -/
def heard (env : Env α σ) (l : List (Tree α)) : List (Info α) :=
  (infos l).filter (fun i => (env.visitors i.typ).isSome)

theorem heard_append (env : Env α σ) (a b : List (Tree α)) : heard env (a ++ b) = heard env a ++ heard env b := by
  simp [heard, infos]

theorem perm_twice {β : Type} {a b c d : List β} (h1 : a.Perm (b ++ b)) (h2 : c.Perm (d ++ d)) :
    (a ++ c).Perm ((b ++ d) ++ (b ++ d)) := by
  refine (h1.append h2).trans ?_
  simp only [List.append_assoc]
  refine List.Perm.append_left _ ?_
  rw [← List.append_assoc, ← List.append_assoc]
  exact (List.perm_append_comm).append_right _

theorem callees_of (env : Env α σ) (h1 : ∀ e, ∃ h, env.listeners e = [h]) (ev : Ev) (v : View α) (e : Nat) :
    callees (callsOf ev v (env.listeners e)) = [v.node.info] := by
  obtain ⟨h, hh⟩ := h1 e
  simp [hh, callsOf, callsFrom, callees]

theorem perm_around {β : Type} {x : β} {a b : List β} (h : a.Perm (b ++ b)) : ([x] ++ (a ++ [x])).Perm (([x] ++ b) ++ ([x] ++ b)) := by
  have : (a ++ [x]).Perm (b ++ ([x] ++ b)) := by
    refine (h.append_right _).trans ?_
    simp only [List.append_assoc]
    exact List.Perm.append_left _ List.perm_append_comm
  simp only [List.append_assoc]
  exact List.Perm.append_left _ this

mutual
theorem callees_tree (env : Env α σ) (h1 : ∀ e, ∃ h, env.listeners e = [h]) : ∀ (t : Tree α) (vcs : List (VC α)) (sc seed : Nat) (k : Key),
    Leafy env (nodes t) → (callees (calls env vcs sc seed k t)).Perm (heard env (nodes t) ++ heard env (nodes t))
  | .mk i slots, vcs, sc, seed, k, hl => by
    have hs : Leafy env (nodesS slots) := fun t ht => hl t (by rw [nodes]; exact List.mem_cons_of_mem _ ht)
    have h0 := hl (.mk i slots) (self_nodes _)
    simp only [Tree.info] at h0
    rw [calls]
    cases hv : env.visitors i.typ with
    | none =>
      rw [h0 (.inl hv)]
      simp [callees, heard, infos, Tree.info, hv]
    | some row =>
      have hh : heard env (nodes (.mk i slots)) = [i] ++ heard env (nodesS slots) := by
        simp [nodes, heard, infos, Tree.info, hv]
      rw [hh]
      obtain ⟨ty, ev, sh, sd⟩ := row
      cases sh with
      | atom =>
        have := h0 (.inr ⟨_, hv, rfl⟩)
        have hn : nodesS slots = [] := by simpa [nodes] using this
        simp only [callees_append, callees_of env h1, hn, Tree.info]
        simp [heard, infos]
      | inner p =>
        cases p with
        | never =>
          simp only [callees_append, callees_of env h1, Tree.info]
          exact perm_around (callees_slots env h1 slots _ _ _ hs)
        | before =>
          simp only [callees_append, callees_of env h1, Tree.info]
          exact perm_around (callees_slots env h1 slots _ _ _ hs)
        | afterFirst =>
          simp only [callees_append, callees_of env h1, Tree.info]
          exact perm_around (callees_fn env h1 slots _ _ _ _ hs)
theorem callees_slots (env : Env α σ) (h1 : ∀ e, ∃ h, env.listeners e = [h]) : ∀ (s : Slots α) (vcs : List (VC α)) (sc seed : Nat),
    Leafy env (nodesS s) → (callees (callsS env vcs sc seed s)).Perm (heard env (nodesS s) ++ heard env (nodesS s))
  | .nil, _, _, _, _ => by simp [callsS, nodesS, callees, heard, infos]
  | .one key o rest, _, _, _, hl => by
    simp only [callsS, nodesS, callees_append, heard_append]
    exact perm_twice (callees_o env h1 o _ _ _ _ (leafy_left hl)) (callees_slots env h1 rest _ _ _ (leafy_right hl))
  | .many key ts rest, _, _, _, hl => by
    simp only [callsS, nodesS, callees_append, heard_append]
    exact perm_twice (callees_trees env h1 ts _ _ _ _ _ (leafy_left hl)) (callees_slots env h1 rest _ _ _ (leafy_right hl))
theorem callees_fn (env : Env α σ) (h1 : ∀ e, ∃ h, env.listeners e = [h]) : ∀ (s : Slots α) (vcs : List (VC α)) (sc seed : Nat) (i : Info α),
    Leafy env (nodesS s) → (callees (callsF env vcs sc seed i s)).Perm (heard env (nodesS s) ++ heard env (nodesS s))
  | .nil, _, _, _, _, _ => by simp [callsF, nodesS, callees, heard, infos]
  | .one key o rest, _, _, _, _, hl => by
    simp only [callsF, nodesS, callees_append, heard_append]
    exact perm_twice (callees_o env h1 o _ _ _ _ (leafy_left hl)) (callees_slots env h1 rest _ _ _ (leafy_right hl))
  | .many key ts rest, _, _, _, _, hl => by
    simp only [callsF, nodesS, callees_append, heard_append]
    exact perm_twice (callees_trees env h1 ts _ _ _ _ _ (leafy_left hl)) (callees_slots env h1 rest _ _ _ (leafy_right hl))
theorem callees_o (env : Env α σ) (h1 : ∀ e, ∃ h, env.listeners e = [h]) : ∀ (o : OTree α) (vcs : List (VC α)) (sc seed : Nat) (k : Key),
    Leafy env (nodesO o) → (callees (callsO env vcs sc seed k o)).Perm (heard env (nodesO o) ++ heard env (nodesO o))
  | .none, _, _, _, _, _ => by simp [callsO, nodesO, callees, heard, infos]
  | .some t, _, _, _, _, hl => by rw [callsO, nodesO]; exact callees_tree env h1 t _ _ _ _ hl
theorem callees_trees (env : Env α σ) (h1 : ∀ e, ∃ h, env.listeners e = [h]) : ∀ (ts : Trees α) (vcs : List (VC α)) (sc seed : Nat)
    (key : String) (n : Nat), Leafy env (nodesL ts) → (callees (callsL env vcs sc seed key n ts)).Perm (heard env (nodesL ts) ++ heard env (nodesL ts))
  | .nil, _, _, _, _, _, _ => by simp [callsL, nodesL, callees, heard, infos]
  | .cons o rest, _, _, _, _, _, hl => by
    simp only [callsL, nodesL, callees_append, heard_append]
    exact perm_twice (callees_o env h1 o _ _ _ _ (leafy_left hl)) (callees_trees env h1 rest _ _ _ _ _ (leafy_right hl))
end

/-! ## The tree as seen has leaves where the visitors look at nothing -/

set_option maxRecDepth 1000000 in
theorem atoms_ok : ∀ r ∈ rows, r.shape = .atom → r.slots = [] := by decide +kernel

theorem slots_atom (typ : Nat) (h : visitors typ = none ∨ ∃ r, visitors typ = some r ∧ r.shape = .atom) : visitedSlots typ = [] := by
  rcases h with h | ⟨r, h, hs⟩
  · simp [visitedSlots, h]
  · simp only [visitedSlots, h]
    exact atoms_ok r (List.mem_of_find?_eq_some h) hs

/-- A node looks as a visitor sees it. -/
def SeenNode (t : Tree α) : Prop := ∃ i s, t = .mk i (pick i.typ s (visitedSlots i.typ))

theorem seen_leafy (env : Env α σ) (hv : env.visitors = visitors) (l : List (Tree α)) (h : ∀ t ∈ l, SeenNode t) : Leafy env l := by
  intro t ht hn
  obtain ⟨i, s, rfl⟩ := h t ht
  rw [hv] at hn
  have := slots_atom i.typ hn
  rw [this, pick, nodes, nodesS]

/-- All nodes of the trees in the slots look as seen. -/
def AllS (s : Slots α) : Prop := ∀ t ∈ nodesS s, SeenNode t

theorem findOne_mem (name : String) : ∀ (s : Slots α), ∀ t ∈ nodesO (findOne name s), t ∈ nodesS s
  | .nil, t, h => by simp [findOne, nodesO] at h
  | .one k o rest, t, h => by
    simp only [findOne] at h
    rw [nodesS, List.mem_append]
    split at h
    · exact .inl h
    · exact .inr (findOne_mem name rest t h)
  | .many k o rest, t, h => by
    simp only [findOne] at h
    rw [nodesS, List.mem_append]
    exact .inr (findOne_mem name rest t h)

theorem findMany_mem (name : String) : ∀ (s : Slots α), ∀ t ∈ nodesL (findMany name s), t ∈ nodesS s
  | .nil, t, h => by simp [findMany, nodesL] at h
  | .many k o rest, t, h => by
    simp only [findMany] at h
    rw [nodesS, List.mem_append]
    split at h
    · exact .inl h
    · exact .inr (findMany_mem name rest t h)
  | .one k o rest, t, h => by
    simp only [findMany] at h
    rw [nodesS, List.mem_append]
    exact .inr (findMany_mem name rest t h)

theorem getOne_mem (typ : Nat) (name : String) (s : Slots α) (t : Tree α) (h : t ∈ nodesO (getOne typ name s)) : t ∈ nodesS s := by
  simp only [getOne] at h
  split at h
  · cases ho : findOne name s with
    | none => rw [ho] at h; simp [unparen, nodesO] at h
    | some u =>
      cases u with
      | mk i r =>
        have hm := findOne_mem name s
        rw [ho, nodesO] at hm
        rw [ho] at h
        simp only [unparen] at h
        split at h
        · exact hm t (by rw [nodes]; exact List.mem_cons_of_mem _ (findOne_mem "Expr" r t h))
        · exact hm t h
  · split at h
    · exact findOne_mem _ s t h
    · exact findOne_mem _ s t h

theorem getMany_mem (typ : Nat) (name : String) (s : Slots α) (t : Tree α) (h : t ∈ nodesL (getMany typ name s)) : t ∈ nodesS s := by
  simp only [getMany] at h
  split at h
  · cases ho : findOne "ParamsInst" s with
    | none => rw [ho] at h; simp [nodesL] at h
    | some u =>
      cases u with
      | mk i r =>
        have hm := findOne_mem "ParamsInst" s
        rw [ho, nodesO] at hm
        rw [ho] at h
        exact hm t (by rw [nodes]; exact List.mem_cons_of_mem _ (findMany_mem "Params" r t h))
  · exact findMany_mem _ s t h

theorem pick_mem (typ : Nat) (s : Slots α) : ∀ ds, ∀ t ∈ nodesS (pick typ s ds), t ∈ nodesS s
  | [], t, h => by simp [pick, nodesS] at h
  | d :: ds, t, h => by
    rw [pick] at h
    split at h <;> rw [nodesS, List.mem_append] at h
    · exact h.elim (getMany_mem typ _ s t) (pick_mem typ s ds t)
    · exact h.elim (getOne_mem typ _ s t) (pick_mem typ s ds t)

mutual
theorem seen_all : ∀ (t : Tree α), ∀ n ∈ nodes (seen t), SeenNode n
  | .mk i s, n, h => by
    rw [seen, nodes, List.mem_cons] at h
    rcases h with rfl | h
    · exact ⟨i, seenS s, rfl⟩
    · exact seenS_all s n (pick_mem _ _ _ n h)
theorem seenS_all : ∀ (s : Slots α), ∀ n ∈ nodesS (seenS s), SeenNode n
  | .nil, n, h => by simp [seenS, nodesS] at h
  | .one _ o rest, n, h => by
    rw [seenS, nodesS, List.mem_append] at h
    exact h.elim (seenO_all o n) (seenS_all rest n)
  | .many _ ts rest, n, h => by
    rw [seenS, nodesS, List.mem_append] at h
    exact h.elim (seenL_all ts n) (seenS_all rest n)
theorem seenO_all : ∀ (o : OTree α), ∀ n ∈ nodesO (seenO o), SeenNode n
  | .none, n, h => by simp [seenO, nodesO] at h
  | .some t, n, h => by rw [seenO, nodesO] at h; exact seen_all t n h
theorem seenL_all : ∀ (ts : Trees α), ∀ n ∈ nodesL (seenL ts), SeenNode n
  | .nil, n, h => by simp [seenL, nodesL] at h
  | .cons o rest, n, h => by
    rw [seenL, nodesL, List.mem_append] at h
    exact h.elim (seenO_all o n) (seenL_all rest n)
end

/-! ## Decorators -/

/-- No decorator among the nodes of a slot, but for the slot of decorators. -/
def Clean : Slots α → Prop
  | .nil => True
  | .one k o rest => (k ≠ "TypInfo.Decorators" → ∀ n ∈ nodesO o, n.info.typ ≠ N_DECORATOR) ∧ Clean rest
  | .many k ts rest => (k ≠ "TypInfo.Decorators" → ∀ n ∈ nodesL ts, n.info.typ ≠ N_DECORATOR) ∧ Clean rest

theorem clean_one (name : String) (hn : name ≠ "TypInfo.Decorators") : ∀ (s : Slots α), Clean s →
    ∀ n ∈ nodesO (findOne name s), n.info.typ ≠ N_DECORATOR
  | .nil, _, n, h => by simp [findOne, nodesO] at h
  | .one k o rest, hc, n, h => by
    simp only [findOne] at h
    split at h
    · next hk => exact hc.1 (hk ▸ hn) n h
    · exact clean_one name hn rest hc.2 n h
  | .many _ _ rest, hc, n, h => clean_one name hn rest hc.2 n (by simpa only [findOne] using h)

theorem clean_many (name : String) (hn : name ≠ "TypInfo.Decorators") : ∀ (s : Slots α), Clean s →
    ∀ n ∈ nodesL (findMany name s), n.info.typ ≠ N_DECORATOR
  | .nil, _, n, h => by simp [findMany, nodesL] at h
  | .many k o rest, hc, n, h => by
    simp only [findMany] at h
    split at h
    · next hk => exact hc.1 (hk ▸ hn) n h
    · exact clean_many name hn rest hc.2 n h
  | .one _ _ rest, hc, n, h => clean_many name hn rest hc.2 n (by simpa only [findMany] using h)

theorem clean_pick (typ : Nat) (s : Slots α) (hc : Clean s) : ∀ ds : List SlotDecl, (∀ d ∈ ds, d.name ≠ "TypInfo.Decorators") →
    ∀ n ∈ nodesS (pick typ s ds), n.info.typ ≠ N_DECORATOR
  | [], _, n, h => by simp [pick, nodesS] at h
  | d :: ds, hd, n, h => by
    have hn := hd d (by simp)
    have hr := clean_pick typ s hc ds (fun x hx => hd x (by simp [hx])) n
    rw [pick] at h
    split at h <;> rw [nodesS, List.mem_append] at h <;> refine h.elim (fun h => ?_) hr
    · simp only [getMany] at h
      split at h
      · have hp := clean_one "ParamsInst" (by decide) s hc
        cases ho : findOne "ParamsInst" s with
        | none => rw [ho] at h; simp [nodesL] at h
        | some u =>
          cases u with
          | mk i r =>
            rw [ho] at h hp
            exact hp n (by rw [nodesO, nodes]; exact List.mem_cons_of_mem _ (findMany_mem "Params" r n h))
      · exact clean_many _ hn s hc n h
    · simp only [getOne] at h
      split at h
      · have hp := clean_one d.name hn s hc
        cases ho : findOne d.name s with
        | none => rw [ho] at h; simp [unparen, nodesO] at h
        | some u =>
          cases u with
          | mk i r =>
            rw [ho] at h hp
            simp only [unparen] at h
            split at h
            · exact hp n (by rw [nodesO, nodes]; exact List.mem_cons_of_mem _ (findOne_mem "Expr" r n h))
            · exact hp n h
      · split at h
        · exact clean_one _ (by decide) s hc n h
        · exact clean_one _ hn s hc n h

set_option maxRecDepth 1000000 in
theorem rows_visible : ∀ r ∈ rows, ∀ d ∈ r.slots, d.name ≠ "TypInfo.Decorators" := by decide +kernel

theorem visited_visible (typ : Nat) : ∀ d ∈ visitedSlots typ, d.name ≠ "TypInfo.Decorators" := by
  intro d hd
  simp only [visitedSlots] at hd
  cases hv : visitors typ with
  | none => rw [hv] at hd; simp at hd
  | some r => rw [hv] at hd; exact rows_visible r (List.mem_of_find?_eq_some hv) d hd

/-- Where decorators are. -/
def PlacedIn (l : List (Tree α)) : Prop := ∀ i s, Tree.mk i s ∈ l → onlyDecorates s

theorem placed_left {a b : List (Tree α)} (h : PlacedIn (a ++ b)) : PlacedIn a := fun i s hm => h i s (List.mem_append_left _ hm)
theorem placed_right {a b : List (Tree α)} (h : PlacedIn (a ++ b)) : PlacedIn b := fun i s hm => h i s (List.mem_append_right _ hm)

mutual
theorem dec_tree : ∀ (t : Tree α), PlacedIn (nodes t) → t.info.typ ≠ N_DECORATOR → ∀ n ∈ nodes (seen t), n.info.typ ≠ N_DECORATOR
  | .mk i s, h, ht, n, hn => by
    rw [seen, nodes, List.mem_cons] at hn
    rcases hn with rfl | hn
    · exact ht
    · exact clean_pick _ _ (dec_slots s (fun j r hm => h j r (by rw [nodes]; exact List.mem_cons_of_mem _ hm)) (h i s (self_nodes _))) _
        (visited_visible _) n hn
theorem dec_slots : ∀ (s : Slots α), PlacedIn (nodesS s) → onlyDecorates s → Clean (seenS s)
  | .nil, _, _ => trivial
  | .one k o rest, h, hd => ⟨fun hk => dec_o o (placed_left h) (fun hi => hk (hd.1 hi)), dec_slots rest (placed_right h) hd.2⟩
  | .many k ts rest, h, hd => ⟨fun hk => dec_trees ts (placed_left h) (fun hi => hk (hd.1 hi)), dec_slots rest (placed_right h) hd.2⟩
theorem dec_o : ∀ (o : OTree α), PlacedIn (nodesO o) → ¬ isA N_DECORATOR o → ∀ n ∈ nodesO (seenO o), n.info.typ ≠ N_DECORATOR
  | .none, _, _, n, hn => by simp [seenO, nodesO] at hn
  | .some t, h, ht, n, hn => by rw [seenO, nodesO] at hn; exact dec_tree t h ht n hn
theorem dec_trees : ∀ (ts : Trees α), PlacedIn (nodesL ts) → ¬ someIsA N_DECORATOR ts → ∀ n ∈ nodesL (seenL ts), n.info.typ ≠ N_DECORATOR
  | .nil, _, _, n, hn => by simp [seenL, nodesL] at hn
  | .cons o rest, h, ht, n, hn => by
    rw [seenL, nodesL, List.mem_append] at hn
    exact hn.elim (dec_o o (placed_left h) (fun hi => ht (.inl hi)) n) (dec_trees rest (placed_right h) (fun hi => ht (.inr hi)) n)
end

end Mole.Walk
