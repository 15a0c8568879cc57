import Verif.Parser.CmtsProof

/-! # C82: comments are reported once

The full statement: every comment of the source is reported for exactly one node, as one that precedes it if it does and as one that
follows it if it does; what is reported for a node is in the order of the source.

What is missing: comments may be lost, be reported on the wrong side or, in TypeScript, twice (the theorems `_violated`). -/

namespace Mole.Parser.Cmts

/-- No comment is reported for two nodes, or for one on both sides.  (Whatever the parser does, in JavaScript.) -/
theorem reported_once {src : List Item} {l : List Op} (hs : Sorted (cmts src)) (hl : plain l) {k k' : Key} {c : Cmt}
    (h : c ∈ (run (start src) l).get k) (h' : c ∈ (run (start src) l).get k') : k = k' := by
  have i := (Inv.init src).run hl
  have hn : ((run (start src) l).all ++ cmts (run (start src) l).src).Nodup := i.acct.nodup_iff.2 hs.nodup
  have hm : ((run (start src) l).maps.map (·.2)).flatten.Nodup := by
    have := (List.nodup_append.1 hn).1
    rw [St.all] at this
    exact (List.nodup_append.1 this).2.1
  obtain ⟨a, h1, h2, _⟩ := get_mem h
  obtain ⟨b, h3, h4, _⟩ := get_mem h'
  apply Decidable.byContradiction
  intro hk
  exact two_entries h2 h4 hk h1 h3 hm

/-- What is reported are comments of the source, in their order and each once. -/
theorem reported_in_order {src : List Item} {l : List Op} (hs : Sorted (cmts src)) (hl : plain l) (k : Key) :
    ((run (start src) l).get k).Sublist (cmts src) ∧ Sorted ((run (start src) l).get k) := by
  have i := (Inv.init src).run hl
  have : ((run (start src) l).get k).Sublist (cmts src) := by
    obtain ⟨r, h1, _, _, _, h5⟩ := i.read
    rw [St.get]
    cases e : (run (start src) l).maps.lookup k with
    | none => exact List.nil_sublist _
    | some a => rw [h1]; exact (h5 _ (lookup_mem e)).trans (List.sublist_append_left _ _)
  exact ⟨this, hs.sublist this⟩

/-- A comment that has been read is reported, unless it still waits or something has been reported for the same node later. -/
theorem reported_partial {src : List Item} {l : List Op} (hl : plain l) (hk : ((run (start src) l).maps.map (·.1)).Nodup) {c : Cmt}
    (hc : c ∈ cmts src) :
    (∃ k, c ∈ (run (start src) l).get k) ∨
      c ∈ (run (start src) l).stmt ∨ c ∈ (run (start src) l).expr ∨ c ∈ (run (start src) l).held.flatten ∨ c ∈ cmts (run (start src) l).src := by
  have i := (Inv.init src).run hl
  have := i.acct.mem_iff.2 hc
  simp only [St.all, List.mem_append] at this
  rcases this with (((h | h) | h) | h) | h
  · exact .inr (.inl h)
  · exact .inr (.inr (.inl h))
  · exact .inr (.inr (.inr (.inl h)))
  · obtain ⟨a, ha, hc⟩ := List.mem_flatten.1 h
    obtain ⟨⟨k, a'⟩, he, rfl⟩ := List.mem_map.1 ha
    refine .inl ⟨k, ?_⟩
    rw [St.get, lookup_of_nodup hk he]
    exact hc
  · exact .inr (.inr (.inr (.inr h)))

/-- A program of names and assignments: each comment is reported, for one node only, unless it waits to be reported for a statement that
does not come.  (`l ≠ []` as nothing is reported for an empty program; the nodes are different.) -/
theorem program_reported_partial {src : List Item} {l : List (Nat × E)} (hs : Sorted (cmts src)) (hl : l ≠ []) (he : ∀ p ∈ l, p.2.noObj)
    (hk : (keys l).Nodup) (hr : cmts (run (start src) (progOps l)).src = []) {c : Cmt} (hc : c ∈ cmts src)
    (hw : c ∉ (run (start src) (progOps l)).stmt) :
    ∃ k, c ∈ (run (start src) (progOps l)).get k ∧ ∀ k', c ∈ (run (start src) (progOps l)).get k' → k' = k := by
  obtain ⟨h1, h2, m, h3, h4⟩ := stmts_spec l he (step (start src) .lex) (.inr hl)
  have e : run (step (start src) .lex) (l.flatMap fun p => stmtOps p.1 p.2) = run (start src) (progOps l) := rfl
  have h0 := lex_same (start src)
  rw [e] at h1 h2 h3
  have hk' : ((run (start src) (progOps l)).maps.map (·.1)).Nodup := by
    rw [h3, h0.2]
    simp only [start, List.append_nil]
    exact h4.nodup ((List.reverse_perm _).nodup_iff.2 hk)
  rcases reported_partial (plain_prog l) hk' hc with h | h | h | h | h
  · obtain ⟨k, h⟩ := h
    exact ⟨k, h, fun k' h' => reported_once hs (plain_prog l) h' h⟩
  · exact absurd h hw
  · rw [h1] at h; exact nomatch h
  · rw [h2, h0.1] at h; exact nomatch h
  · rw [hr] at h; exact nomatch h

/-- For statements that are names, what is reported for each node is known: see `entries`.  (The maps are given from the last written to the
first, without what is empty; `l` are the comments after the last statement.) -/
theorem statement_comments (rows : List Row) (l : List Cmt) :
    (run (start (source rows l)) (progOps (rows.map fun r => (r.stmt, .name r.name)))).maps.reverse =
      (entries (own (next rows l)) (inline (next rows l)) rows l).filter fun e => !e.2.isEmpty := by
  show (run (step (start (source rows l)) .lex) _).maps.reverse = _
  rw [lex_source rows l _ rfl, List.flatMap_map, rows_run l rows _ rfl]
  simp [start]

/-! ## Where the full statement fails -/

/-- `a; ⏎ /*c*/` : a comment on its own line at the end is reported for no node. -/
theorem last_comment_violated : ∃ (src : List Item) (l : List (Nat × E)) (c : Cmt), Sorted (cmts src) ∧ c ∈ cmts src ∧
    ∀ k, (run (start src) (progOps l)).get k = [] :=
  ⟨[.tok 0, .tok 1, .cmt ⟨3, 8, true⟩], [(0, .name 1)], ⟨3, 8, true⟩, by simp [cmts, Sorted], by simp [cmts], fun _ => rfl⟩

/-- `x = /*a*/ {} /*b*/;` : the comment before the object is lost when the one after it is reported, as one before it. -/
theorem object_comment_violated : ∃ (src : List Item) (l : List (Nat × E)) (c d : Cmt), cmts src = [c, d] ∧ Sorted (cmts src) ∧
    (run (start src) (progOps l)).get ⟨3, true⟩ = [d] ∧ ∀ k, c ∉ (run (start src) (progOps l)).get k := by
  refine ⟨[.tok 0, .tok 2, .cmt ⟨4, 9, false⟩, .tok 10, .tok 11, .cmt ⟨13, 18, false⟩, .tok 18], [(0, .asg 1 2 (.obj 3))], ⟨4, 9, false⟩,
    ⟨13, 18, false⟩, rfl, by simp [cmts, Sorted], rfl, fun k hk => ?_⟩
  have e : (run (start [.tok 0, .tok 2, .cmt ⟨4, 9, false⟩, .tok 10, .tok 11, .cmt ⟨13, 18, false⟩, .tok 18])
    (progOps [(0, .asg 1 2 (.obj 3))])).maps = [(⟨3, true⟩, [⟨13, 18, false⟩]), (⟨3, true⟩, [⟨4, 9, false⟩])] := rfl
  rw [St.get, e, List.lookup_cons] at hk
  split at hk
  · simp at hk
  · next h => rw [List.lookup_cons, h] at hk; simp at hk

/-- `a /*c*/;` : the comment follows the name, it is reported as one that precedes it. -/
theorem side_violated : ∃ (src : List Item) (l : List (Nat × E)) (c : Cmt), src = [.tok 0, .cmt c, .tok 7] ∧ 0 < c.lo ∧ c.hi ≤ 7 ∧
    (run (start src) (progOps l)).get ⟨1, true⟩ = [c] ∧ l = [(0, .name 1)] :=
  ⟨_, _, ⟨2, 7, false⟩, rfl, by decide, by decide, rfl, rfl⟩

/-- `a; ⏎ /*1*/ /*2*/ /*3*/ b;` : of three comments between two statements on the line of the second, the third is reported for the first
statement. -/
theorem third_comment_violated : ∃ (src : List Item) (l : List (Nat × E)) (a b c : Cmt), cmts src = [a, b, c] ∧ l = [(0, .name 1), (2, .name 3)] ∧
    (run (start src) (progOps l)).get ⟨2, true⟩ = [a, b] ∧ (run (start src) (progOps l)).get ⟨0, false⟩ = [c] :=
  ⟨[.tok 0, .tok 1, .cmt ⟨3, 8, true⟩, .cmt ⟨9, 14, false⟩, .cmt ⟨15, 20, false⟩, .tok 21, .tok 22], _, ⟨3, 8, true⟩, ⟨9, 14, false⟩,
    ⟨15, 20, false⟩, rfl, rfl, rfl, rfl⟩

/-- `a < /*c*/ b;` in TypeScript: the comment is reported twice. -/
theorem ts_comment_violated : ∃ (src : List Item) (c : Cmt), cmts src = [c] ∧ (run (start src) (ltOps 0 1)).get ⟨1, true⟩ = [c, c] :=
  ⟨[.tok 0, .tok 2, .cmt ⟨4, 9, false⟩, .tok 10, .tok 11], ⟨4, 9, false⟩, rfl, rfl⟩

/-! ## The hypotheses are met -/

/-- `/*1*/ a = /*2*/ b; /*3*/ ⏎ /*4*/ c;` -/
def demo : List Item :=
  [.cmt ⟨0, 5, false⟩, .tok 6, .tok 8, .cmt ⟨10, 15, false⟩, .tok 16, .tok 17, .cmt ⟨19, 24, false⟩, .cmt ⟨25, 30, true⟩, .tok 31, .tok 32]

def demoProg : List (Nat × E) := [(0, .asg 1 2 (.name 3)), (4, .name 5)]

example : Sorted (cmts demo) := by simp [Sorted, demo, cmts]
example : plain (progOps demoProg) := plain_prog _
example : demoProg ≠ [] ∧ (∀ p ∈ demoProg, p.2.noObj) ∧ (keys demoProg).Nodup ∧ cmts (run (start demo) (progOps demoProg)).src = [] ∧
    (run (start demo) (progOps demoProg)).stmt = [] :=
  ⟨by simp [demoProg], by simp [demoProg, E.noObj], by decide, rfl, rfl⟩
example : (run (start demo) (progOps demoProg)).get ⟨0, true⟩ = [⟨0, 5, false⟩] := rfl
example : (run (start demo) (progOps demoProg)).get ⟨3, true⟩ = [⟨10, 15, false⟩] := rfl
example : (run (start demo) (progOps demoProg)).get ⟨0, false⟩ = [⟨19, 24, false⟩] := rfl
example : (run (start demo) (progOps demoProg)).get ⟨4, true⟩ = [⟨25, 30, true⟩] := rfl
example : (source [⟨0, 1, [⟨0, 5, false⟩], [⟨8, 13, false⟩]⟩, ⟨2, 3, [⟨15, 20, true⟩], []⟩] [⟨25, 30, false⟩]).length = 8 := rfl

end Mole.Parser.Cmts
