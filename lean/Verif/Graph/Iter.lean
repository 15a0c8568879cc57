/-! # Iterating over a control flow graph (C50): model of ecma/analysis/graph.go 955-973 (IterBlock)

Blocks and edges are numbered.  Go's map order is arbitrary, so `util.TakeOne` may give any element of the map; the
iteration is a relation. -/

namespace Mole.Graph

/-- What IterBlock reads of a graph (graph.go 80-85, 122-130): the edges in each block's `Outlets` and where they lead. -/
structure G where
  outlets : Nat → List Nat
  dst : Nat → Option Nat

/-- The state of the loop (graph.go 956-960): the calls of `cb` so far, which are also the keys of `doneMap`, and the keys of
`edges`. -/
structure It where
  seen : List Nat
  edges : List Nat
deriving DecidableEq

/-- util/sets.go 3-9 (Merge) on keys. -/
def merge (a b : List Nat) : List Nat := a ++ b.filter (fun x => decide (x ∉ a))

/-- graph.go 956-960. -/
def begin (g : G) (blk : Nat) : It := { seen := [blk], edges := merge [] (g.outlets blk) }

/-- graph.go 967-972: what is done with the edge taken. -/
def follow (g : G) (s : It) (e : Nat) : It :=
  let rest := s.edges.erase e
  match g.dst e with
  | none => { s with edges := rest }
  | some b => if b ∈ s.seen then { s with edges := rest } else { seen := s.seen ++ [b], edges := merge rest (g.outlets b) }

/-- graph.go 961-973: the states the loop may be in. -/
inductive Loop (g : G) (blk : Nat) : It → Prop
  | begin : Loop g blk (begin g blk)
  | turn {s : It} (e : Nat) : Loop g blk s → e ∈ s.edges → Loop g blk (follow g s e)

/-- Specification: `b` can be reached from `a` along outgoing edges. -/
inductive Reach (g : G) (a : Nat) : Nat → Prop
  | refl : Reach g a a
  | step {b c e : Nat} : Reach g a b → e ∈ g.outlets b → g.dst e = some c → Reach g a c

theorem mem_merge {a b : List Nat} {x : Nat} : x ∈ merge a b ↔ x ∈ a ∨ x ∈ b := by
  simp only [merge, List.mem_append, List.mem_filter, decide_eq_true_eq]
  by_cases h : x ∈ a <;> simp [h]

structure Inv (g : G) (blk : Nat) (s : It) : Prop where
  nodup : s.seen.Nodup
  sound : ∀ b ∈ s.seen, Reach g blk b
  start : blk ∈ s.seen
  closed : ∀ b ∈ s.seen, ∀ e ∈ g.outlets b, ∀ c, g.dst e = some c → c ∈ s.seen ∨ e ∈ s.edges
  known : ∀ e ∈ s.edges, ∃ b ∈ s.seen, e ∈ g.outlets b

theorem inv (g : G) (blk : Nat) {s : It} (h : Loop g blk s) : Inv g blk s := by
  induction h with
  | begin =>
    refine ⟨by simp [begin], by simp [begin]; exact .refl, by simp [begin], ?_, ?_⟩
    · intro b hb e he c _
      rw [begin] at hb
      rw [List.mem_singleton.mp hb] at he
      exact .inr (mem_merge.mpr (.inr he))
    · intro e he
      exact ⟨blk, by simp [begin], (mem_merge.mp he).resolve_left (by simp)⟩
  | @turn s e _ he ih =>
    obtain ⟨h1, h2, h3, h4, h5⟩ := ih
    have er : ∀ x, x ∈ s.edges → x ≠ e → x ∈ s.edges.erase e := fun x hx hne => (List.mem_erase_of_ne hne).mpr hx
    cases hd : g.dst e with
    | none =>
      simp only [follow, hd]
      refine ⟨h1, h2, h3, ?_, fun x hx => h5 x (List.mem_of_mem_erase hx)⟩
      intro b hb x hx c hc
      refine (h4 b hb x hx c hc).imp_right (fun h => er x h ?_)
      rintro rfl
      rw [hd] at hc; cases hc
    | some d =>
      by_cases hs : d ∈ s.seen
      · simp only [follow, hd, if_pos hs]
        refine ⟨h1, h2, h3, ?_, fun x hx => h5 x (List.mem_of_mem_erase hx)⟩
        intro b hb x hx c hc
        by_cases hxe : x = e
        · subst hxe
          rw [hd] at hc; cases hc
          exact .inl hs
        · exact (h4 b hb x hx c hc).imp_right (fun h => er x h hxe)
      · simp only [follow, hd, if_neg hs]
        refine ⟨?_, ?_, List.mem_append_left _ h3, ?_, ?_⟩
        · rw [List.nodup_append]
          refine ⟨h1, by simp, ?_⟩
          intro a ha b hb
          rw [List.mem_singleton.mp hb]
          rintro rfl
          exact hs ha
        · intro b hb
          rcases List.mem_append.mp hb with hb | hb
          · exact h2 b hb
          · rw [List.mem_singleton.mp hb]
            obtain ⟨a, ha, hea⟩ := h5 e he
            exact .step (h2 a ha) hea hd
        · intro b hb x hx c hc
          rcases List.mem_append.mp hb with hb | hb
          · by_cases hxe : x = e
            · subst hxe
              rw [hd] at hc; cases hc
              exact .inl (by simp)
            · rcases h4 b hb x hx c hc with h | h
              · exact .inl (List.mem_append_left _ h)
              · exact .inr (mem_merge.mpr (.inl (er x h hxe)))
          · rw [List.mem_singleton.mp hb] at hx
            exact .inr (mem_merge.mpr (.inr hx))
        · intro x hx
          rcases mem_merge.mp hx with hx | hx
          · obtain ⟨b, hb, h⟩ := h5 x (List.mem_of_mem_erase hx)
            exact ⟨b, List.mem_append_left _ hb, h⟩
          · exact ⟨d, by simp, hx⟩

/-! ## Properties -/

/-- **C50, exactly once**.  In whatever order the edges are taken, when the iteration ends the callback has been called exactly
once for each block that can be reached from the start, and for no other. -/
theorem iter_exact (g : G) (blk : Nat) (s : It) (h : Loop g blk s) (hend : s.edges = []) :
    s.seen.Nodup ∧ ∀ b, b ∈ s.seen ↔ Reach g blk b := by
  obtain ⟨h1, h2, h3, h4, _⟩ := inv g blk h
  refine ⟨h1, fun b => ⟨h2 b, fun hr => ?_⟩⟩
  induction hr with
  | refl => exact h3
  | step _ he hd ih =>
    rcases h4 _ ih _ he _ hd with h | h
    · exact h
    · rw [hend] at h; cases h

theorem length_le_of_nodup_subset : ∀ (l m : List Nat), l.Nodup → (∀ x ∈ l, x ∈ m) → l.length ≤ m.length := by
  intro l
  induction l with
  | nil => intro m _ _; simp
  | cons a l ih =>
    intro m hn hs
    have ha := hs a (List.mem_cons_self ..)
    have hn' := List.nodup_cons.mp hn
    have := ih (m.erase a) hn'.2 (fun x hx => (List.mem_erase_of_ne (fun h => by subst h; exact hn'.1 hx)).mpr (hs x (List.mem_cons_of_mem _ hx)))
    rw [List.length_erase_of_mem ha] at this
    have : 0 < m.length := List.length_pos_of_mem ha
    simp only [List.length_cons]
    omega

/-- **C50, termination**.  If finitely many blocks can be reached, no order of taking edges lets the iteration go on for
ever. -/
theorem iter_ends (g : G) (blk : Nat) (all : List Nat) (hall : ∀ b, Reach g blk b → b ∈ all) :
    ¬ ∃ f : Nat → It, f 0 = begin g blk ∧ ∀ n, ∃ e ∈ (f n).edges, f (n + 1) = follow g (f n) e := by
  rintro ⟨f, h0, hf⟩
  have hl : ∀ n, Loop g blk (f n) := by
    intro n
    induction n with
    | zero => rw [h0]; exact .begin
    | succ n ih =>
      obtain ⟨e, he, hn⟩ := hf n
      rw [hn]; exact .turn e ih he
  have bound : ∀ n, (f n).seen.length ≤ all.length := fun n =>
    length_le_of_nodup_subset _ _ (inv g blk (hl n)).nodup (fun b hb => hall b ((inv g blk (hl n)).sound b hb))
  -- between two visits the edges run out
  have step : ∀ n, (f (n + 1)).seen.length = (f n).seen.length + 1 ∨
      ((f (n + 1)).seen.length = (f n).seen.length ∧ (f (n + 1)).edges.length + 1 = (f n).edges.length) := by
    intro n
    obtain ⟨e, he, hn⟩ := hf n
    have hlen := List.length_erase_of_mem he
    have hpos : 0 < (f n).edges.length := List.length_pos_of_mem he
    rw [hn, follow]
    cases hd : g.dst e with
    | none => right; exact ⟨rfl, by simp only [hlen]; omega⟩
    | some b =>
      by_cases hs : b ∈ (f n).seen
      · simp only [if_pos hs]; right; exact ⟨trivial, by simp only [hlen]; omega⟩
      · simp only [if_neg hs]; left; simp
  have visit : ∀ k n, (f n).edges.length ≤ k → ∃ m, (f m).seen.length = (f n).seen.length + 1 := by
    intro k
    induction k with
    | zero =>
      intro n hk
      obtain ⟨e, he, _⟩ := hf n
      have := List.length_pos_of_mem he
      omega
    | succ k ih =>
      intro n hk
      rcases step n with h | ⟨h1, h2⟩
      · exact ⟨n + 1, h⟩
      · obtain ⟨m, hm⟩ := ih (n + 1) (by omega)
        exact ⟨m, by omega⟩
  have many : ∀ k, ∃ n, k ≤ (f n).seen.length := by
    intro k
    induction k with
    | zero => exact ⟨0, Nat.zero_le _⟩
    | succ k ih =>
      obtain ⟨n, hn⟩ := ih
      obtain ⟨m, hm⟩ := visit _ n (Nat.le_refl _)
      exact ⟨m, by omega⟩
  obtain ⟨n, hn⟩ := many (all.length + 1)
  have := bound n
  omega

/-- A loop: 0 → 1 → 2 → 1, and 2 leads out of the graph; block 3 is not reached. -/
def sample : G where
  outlets := fun b => if b = 0 then [10] else if b = 1 then [11] else if b = 2 then [12, 13] else [14]
  dst := fun e => if e = 10 then some 1 else if e = 11 then some 2 else if e = 12 then some 1 else if e = 14 then some 0 else none

example : ∃ s, Loop sample 0 s ∧ s.edges = [] ∧ s.seen = [0, 1, 2] := by
  have h0 := Loop.begin (g := sample) (blk := 0)
  have h1 := Loop.turn 10 h0 (by decide)
  have h2 := Loop.turn 11 h1 (by decide)
  have h3 := Loop.turn 13 h2 (by decide)
  have h4 := Loop.turn 12 h3 (by decide)
  exact ⟨_, h4, by decide, by decide⟩

example : ∀ b, Reach sample 0 b → b ∈ [0, 1, 2] := by
  intro b h
  induction h with
  | refl => simp
  | step _ he hd ih =>
    simp only [List.mem_cons, List.not_mem_nil, or_false] at ih
    rcases ih with rfl | rfl | rfl <;> simp [sample] at he <;> rcases he with rfl | rfl <;> simp [sample] at hd <;> simp [← hd]

end Mole.Graph
