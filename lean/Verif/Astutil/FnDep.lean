/-! Model of ecma/astutil/astutil.go 335-499: function dependencies (C35, C61). -/

namespace Mole.Astutil

/-- astutil.go 335-348: the graph.  Nodes are numbered; `node f` is the graph node of a syntax node, `caps` are the
declarations of the names a graph node captures, `deps` its dependencies. -/
structure Graph where
  node : Nat → Option Nat
  caps : Nat → List Nat
  deps : Nat → List Nat

/-- astutil.go 477-496: the loop of IsFnDepsOnNode over the queue and the visited nodes; `none`: out of fuel. -/
def search (g : Graph) (target : Nat) : Nat → List Nat → List Nat → Option Bool
  | 0, _, _ => none
  | _ + 1, [], _ => some false
  | fuel + 1, n :: rest, visited =>
    if n ∈ visited then search g target fuel rest visited
    else if target ∈ g.caps n then some true
    else search g target fuel (rest ++ g.deps n) (n :: visited)

/-- astutil.go 469-499 (IsFnDepsOnNode). -/
def isFnDepsOnNode (g : Graph) (fuel fn target : Nat) : Option Bool :=
  match g.node fn with
  | none => some false
  | some f => search g target fuel [f] []

/-! ## Specification -/

/-- `b` is `a` or a dependency of a dependency ... of `a`. -/
inductive Reach (g : Graph) : Nat → Nat → Prop
  | refl (a : Nat) : Reach g a a
  | step {a b c : Nat} : Reach g a b → c ∈ g.deps b → Reach g a c

/-- The function's node reaches one which captures the target. -/
def DependsOn (g : Graph) (fn target : Nat) : Prop := ∃ f n, g.node fn = some f ∧ Reach g f n ∧ target ∈ g.caps n

/-! ## Proofs -/

theorem search_sound (g : Graph) (target f : Nat) : ∀ (fuel : Nat) (queue visited : List Nat),
    (∀ n ∈ queue, Reach g f n) → search g target fuel queue visited = some true → ∃ n, Reach g f n ∧ target ∈ g.caps n := by
  intro fuel
  induction fuel with
  | zero => intro q v _ h; simp [search] at h
  | succ k ih =>
    intro q v hq h
    cases q with
    | nil => simp [search] at h
    | cons n rest =>
      rw [search] at h
      by_cases hv : n ∈ v
      · rw [if_pos hv] at h
        exact ih rest v (fun m hm => hq m (List.mem_cons_of_mem _ hm)) h
      · rw [if_neg hv] at h
        by_cases hc : target ∈ g.caps n
        · exact ⟨n, hq n (List.mem_cons_self ..), hc⟩
        · rw [if_neg hc] at h
          refine ih _ _ ?_ h
          intro m hm
          rcases List.mem_append.mp hm with hm | hm
          · exact hq m (List.mem_cons_of_mem _ hm)
          · exact .step (hq n (List.mem_cons_self ..)) hm

theorem search_complete (g : Graph) (target f : Nat) : ∀ (fuel : Nat) (queue visited : List Nat),
    (f ∈ queue ∨ f ∈ visited) → (∀ n ∈ visited, target ∉ g.caps n ∧ ∀ m ∈ g.deps n, m ∈ queue ∨ m ∈ visited) →
    search g target fuel queue visited = some false → ∀ n, Reach g f n → target ∉ g.caps n := by
  intro fuel
  induction fuel with
  | zero => intro q v _ _ h; simp [search] at h
  | succ k ih =>
    intro q v hf hv h
    cases q with
    | nil =>
      have hall : ∀ n, Reach g f n → n ∈ v := by
        intro n hn
        induction hn with
        | refl => simpa using hf
        | step _ hc ih' => simpa using (hv _ ih').2 _ hc
      exact fun n hn => (hv n (hall n hn)).1
    | cons n rest =>
      rw [search] at h
      by_cases hn : n ∈ v
      · rw [if_pos hn] at h
        refine ih rest v ?_ ?_ h
        · rcases hf with hf | hf
          · rcases List.mem_cons.mp hf with rfl | hf
            · exact .inr hn
            · exact .inl hf
          · exact .inr hf
        · intro m hm
          refine ⟨(hv m hm).1, fun d hd => ?_⟩
          rcases (hv m hm).2 d hd with h' | h'
          · rcases List.mem_cons.mp h' with rfl | h'
            · exact .inr hn
            · exact .inl h'
          · exact .inr h'
      · rw [if_neg hn] at h
        by_cases hc : target ∈ g.caps n
        · rw [if_pos hc] at h; simp at h
        · rw [if_neg hc] at h
          refine ih _ _ ?_ ?_ h
          · rcases hf with hf | hf
            · rcases List.mem_cons.mp hf with rfl | hf
              · exact .inr (List.mem_cons_self ..)
              · exact .inl (List.mem_append_left _ hf)
            · exact .inr (List.mem_cons_of_mem _ hf)
          · intro m hm
            rcases List.mem_cons.mp hm with rfl | hm
            · exact ⟨hc, fun d hd => .inl (List.mem_append_right _ hd)⟩
            · refine ⟨(hv m hm).1, fun d hd => ?_⟩
              rcases (hv m hm).2 d hd with h' | h'
              · rcases List.mem_cons.mp h' with rfl | h'
                · exact .inr (List.mem_cons_self ..)
                · exact .inl (List.mem_append_left _ h')
              · exact .inr (List.mem_cons_of_mem _ h')

/-- With finitely many nodes the loop ends: every node is looked at once, and every iteration shortens the queue or looks
at a new node. -/
theorem search_ends (g : Graph) (target : Nat) : ∀ (todo queue visited : List Nat),
    (∀ n ∈ queue, n ∈ todo ∨ n ∈ visited) → (∀ n ∈ todo, ∀ m ∈ g.deps n, m ∈ todo ∨ m ∈ visited) →
    ∃ fuel b, search g target fuel queue visited = some b := by
  intro todo
  generalize hk : todo.length = k
  induction k using Nat.strongRecOn generalizing todo with
  | _ k ihk =>
    intro queue
    induction queue with
    | nil => intro visited _ _; exact ⟨1, false, rfl⟩
    | cons n rest ihq =>
      intro visited hq hd
      by_cases hv : n ∈ visited
      · obtain ⟨fuel, b, h⟩ := ihq visited (fun m hm => hq m (List.mem_cons_of_mem _ hm)) hd
        exact ⟨fuel + 1, b, by rw [search, if_pos hv, h]⟩
      · by_cases hc : target ∈ g.caps n
        · exact ⟨1, true, by rw [search, if_neg hv, if_pos hc]⟩
        · have hn : n ∈ todo := by
            rcases hq n (List.mem_cons_self ..) with h | h
            · exact h
            · exact absurd h hv
          have hmem : ∀ m, m ∈ todo ∨ m ∈ visited → m ∈ todo.filter (· ≠ n) ∨ m ∈ n :: visited := by
            intro m hm
            by_cases hmn : m = n
            · exact .inr (by simp [hmn])
            · rcases hm with hm | hm
              · exact .inl (List.mem_filter.mpr ⟨hm, by simpa using hmn⟩)
              · exact .inr (List.mem_cons_of_mem _ hm)
          have hlt : (todo.filter (· ≠ n)).length < k := by
            rw [← hk]
            refine List.length_filter_lt_length_iff_exists.mpr ⟨n, hn, by simp⟩
          obtain ⟨fuel, b, h⟩ := ihk _ hlt (todo.filter (· ≠ n)) rfl (rest ++ g.deps n) (n :: visited) (by
            intro m hm
            rcases List.mem_append.mp hm with hm | hm
            · exact hmem m (hq m (List.mem_cons_of_mem _ hm))
            · exact hmem m (hd n hn m hm)) (by
            intro m hm d hdm
            exact hmem d (hd m (List.mem_filter.mp hm).1 d hdm))
          exact ⟨fuel + 1, b, by rw [search, if_neg hv, if_neg hc, h]⟩

theorem search_more (g : Graph) (target : Nat) : ∀ (fuel : Nat) (q v : List Nat) (b : Bool), search g target fuel q v = some b →
    ∀ fuel', fuel ≤ fuel' → search g target fuel' q v = some b := by
  intro fuel
  induction fuel with
  | zero => intro q v b h; simp [search] at h
  | succ k ih =>
    intro q v b h fuel' hle
    cases fuel' with
    | zero => omega
    | succ k' =>
      cases q with
      | nil => simpa [search] using h
      | cons n rest =>
        rw [search] at h ⊢
        by_cases hv : n ∈ v
        · rw [if_pos hv] at h ⊢; exact ih _ _ _ h _ (by omega)
        · rw [if_neg hv] at h ⊢
          by_cases hc : target ∈ g.caps n
          · rw [if_pos hc] at h ⊢; exact h
          · rw [if_neg hc] at h ⊢; exact ih _ _ _ h _ (by omega)

/-! ## Properties (C35) -/

/-- **C35, answers**.  Whenever the query answers, it answers true exactly if the function depends on the target. -/
theorem isFnDepsOnNode_iff (g : Graph) (fuel fn target : Nat) (b : Bool) (h : isFnDepsOnNode g fuel fn target = some b) :
    b = true ↔ DependsOn g fn target := by
  simp only [isFnDepsOnNode] at h
  cases hf : g.node fn with
  | none =>
    rw [hf] at h
    simp only [Option.some.injEq] at h
    subst h
    simp [DependsOn, hf]
  | some f =>
    rw [hf] at h
    simp only at h
    constructor
    · intro hb
      subst hb
      obtain ⟨n, h1, h2⟩ := search_sound g target f fuel [f] [] (by intro n hn; rw [List.mem_singleton.mp hn]; exact .refl f) h
      exact ⟨f, n, hf, h1, h2⟩
    · intro ⟨f', n, h1, h2, h3⟩
      rw [hf, Option.some.injEq] at h1
      subst h1
      cases b with
      | true => rfl
      | false => exact absurd h3 (search_complete g target f fuel [f] [] (.inl (by simp)) (by simp) h n h2)

/-- **C35, termination**.  If the nodes that can be reached are among finitely many, the query answers, however cyclic
the graph is. -/
theorem isFnDepsOnNode_ends (g : Graph) (fn target : Nat) (nodes : List Nat) (hn : ∀ f, g.node fn = some f → f ∈ nodes)
    (hd : ∀ n ∈ nodes, ∀ m ∈ g.deps n, m ∈ nodes) : ∃ b, ∃ k, ∀ fuel, k ≤ fuel → isFnDepsOnNode g fuel fn target = some b := by
  simp only [isFnDepsOnNode]
  cases hf : g.node fn with
  | none => exact ⟨false, 0, fun _ _ => rfl⟩
  | some f =>
    obtain ⟨fuel, b, h⟩ := search_ends g target nodes [f] [] (by
      intro n hm; rw [List.mem_singleton.mp hm]; exact .inl (hn f hf)) (fun n hm m hdm => .inl (hd n hm m hdm))
    exact ⟨b, fuel, fun fuel' hle => search_more g target fuel [f] [] b h fuel' hle⟩

/-- Three functions calling each other in a circle, the last of which captures the declaration 9. -/
def circle : Graph where
  node := fun f => if f < 3 then some f else none
  caps := fun n => if n = 2 then [9] else []
  deps := fun n => if n < 3 then [(n + 1) % 3] else []

example : DependsOn circle 0 9 := by
  refine ⟨0, 2, rfl, .step (b := 1) (.step (b := 0) (.refl 0) (by decide)) (by decide), by decide⟩

example : isFnDepsOnNode circle 10 0 9 = some true ∧ isFnDepsOnNode circle 10 0 8 = some false := by decide

example : (∀ f, circle.node 0 = some f → f ∈ [0, 1, 2]) ∧ ∀ n ∈ [0, 1, 2], ∀ m ∈ circle.deps n, m ∈ [0, 1, 2] := by
  refine ⟨by intro f h; simp [circle] at h; subst h; simp, by decide⟩

end Mole.Astutil
