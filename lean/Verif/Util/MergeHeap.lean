import Verif.Util.ObjectsProps
/-!
# C41: `MergeMap` on maps with identity

`mergeMap` treats maps as values.  Go's maps are references, and `MergeMap` stores the nested maps of the source in
the destination.  Here it is shown, on a heap of maps, that one merge of separate maps does what `mergeMap` says
and leaves the source alone, and that a second merge into the same destination does not.
-/
namespace Mole.Util

mutual
/-- `Reads h x v fp`: in the heap `h` the value `x` reads as `v`, and `fp` are the maps reached, each once. -/
inductive Reads (h : Heap) : HVal → Val → List Nat → Prop where
  | nil : Reads h .nil .nil []
  | atom {n} : Reads h (.atom n) (.atom n) []
  | arr {a} : Reads h (.arr a) (.arr a) []
  | ref {a o fp} : a < h.length → ReadsE h (h.map a) o fp → a ∉ fp → Reads h (.ref a) (.obj o) (a :: fp)
/-- The same for the entries of a map. -/
inductive ReadsE (h : Heap) : Entries → Obj → List Nat → Prop where
  | nil : ReadsE h [] .nil []
  | cons {k x v f r o g} : Reads h x v f → ReadsE h r o g → (∀ a ∈ f, a ∉ g) →
      ReadsE h ((k, x) :: r) (.cons k v o) (f ++ g)
end

mutual
/-- How deeply maps are nested. -/
def Val.depth : Val → Nat
  | .obj o => o.depth + 1
  | _ => 0
def Obj.depth : Obj → Nat
  | .nil => 0
  | .cons _ v r => max v.depth r.depth
end

mutual
theorem Reads.frame {h h' : Heap} (hl : h'.length = h.length) {x v f} (k : Reads h x v f)
    (hf : ∀ a ∈ f, h'.map a = h.map a) : Reads h' x v f := by
  match k with
  | .nil => exact .nil
  | .atom => exact .atom
  | .arr => exact .arr
  | .ref h1 h2 h3 =>
    rename_i a o fp
    refine .ref (hl ▸ h1) ?_ h3
    rw [hf _ (by simp)]
    exact h2.frame hl fun b hb => hf b (by simp [hb])
theorem ReadsE.frame {h h' : Heap} (hl : h'.length = h.length) {x v f} (k : ReadsE h x v f)
    (hf : ∀ a ∈ f, h'.map a = h.map a) : ReadsE h' x v f := by
  match k with
  | .nil => exact .nil
  | .cons h1 h2 h3 =>
    exact .cons (h1.frame hl fun b hb => hf b (by simp [hb])) (h2.frame hl fun b hb => hf b (by simp [hb])) h3
end

theorem ReadsE.find_none {h : Heap} {es o f} (k : ReadsE h es o f) {key : Key} (hn : es.find key = none) :
    o.lookup key = none := by
  match k with
  | .nil => rfl
  | .cons h1 h2 h3 =>
    simp only [Entries.find] at hn
    simp only [Obj.lookup]
    split at hn
    · cases hn
    · rename_i hk; rw [if_neg hk]; exact h2.find_none hn

theorem ReadsE.find_some {h : Heap} {es o f} (k : ReadsE h es o f) {key : Key} {x : HVal}
    (hn : es.find key = some x) : ∃ v g, o.lookup key = some v ∧ Reads h x v g ∧ ∀ a ∈ g, a ∈ f := by
  match k with
  | .nil => cases hn
  | .cons h1 h2 h3 =>
    simp only [Entries.find] at hn
    simp only [Obj.lookup]
    split at hn
    · rename_i hk
      rw [if_pos hk]
      cases hn
      exact ⟨_, _, rfl, h1, fun a ha => by simp [ha]⟩
    · rename_i hk
      rw [if_neg hk]
      obtain ⟨v, g, e1, e2, e3⟩ := h2.find_some hn
      exact ⟨v, g, e1, e2, fun a ha => by simp [e3 a ha]⟩

theorem ReadsE.assign {h : Heap} {es o f} (k : ReadsE h es o f) {key : Key} {x : HVal} {v : Val} {g : List Nat}
    (hx : Reads h x v g) (hd : ∀ a ∈ g, a ∉ f) :
    ∃ f', ReadsE h (Entries.assign key x es) (o.assign key v) f' ∧ ∀ a ∈ f', a ∈ f ∨ a ∈ g := by
  match k with
  | .nil => exact ⟨g ++ [], .cons hx .nil (by simp), by simp⟩
  | .cons (k := k0) (x := x0) (f := f0) (g := g0) h1 h2 h3 =>
    simp only [Entries.assign, Obj.assign]
    split
    · exact ⟨g ++ g0, .cons hx h2 (fun a ha hb => hd a ha (by simp [hb])), by
        intro a ha; rcases List.mem_append.1 ha with ha | ha <;> simp [ha]⟩
    · obtain ⟨f', e1, e2⟩ := h2.assign (key := key) hx (fun a ha hb => hd a ha (by simp [hb]))
      refine ⟨f0 ++ f', .cons h1 e1 ?_, ?_⟩
      · intro a ha hb
        rcases e2 a hb with hb | hb
        · exact h3 a ha hb
        · exact hd a hb (by simp [ha])
      · intro a ha
        rcases List.mem_append.1 ha with ha | ha
        · simp [ha]
        · rcases e2 a ha with ha | ha <;> simp [ha]

/-- The map stored under a key changes in place. -/
theorem ReadsE.update {h h' : Heap} (hl : h'.length = h.length) {es o f} (k : ReadsE h es o f) {key : Key}
    {x : HVal} (hn : es.find key = some x) {v v' : Val} {g g' e : List Nat} (hv : o.lookup key = some v)
    (hg : ∀ g0, Reads h x v g0 → g0 = g)
    (hout : ∀ a, a ∉ g → h'.map a = h.map a) (hx : Reads h' x v' g') (hs : ∀ a ∈ g', a ∈ g ∨ a ∈ e)
    (hd : ∀ a ∈ e, a ∉ f) :
    ∃ f', ReadsE h' es (o.assign key v') f' ∧ ∀ a ∈ f', a ∈ f ∨ a ∈ e := by
  match k with
  | .nil => cases hn
  | .cons (k := k0) (x := x0) (f := f0) (g := g0) h1 h2 h3 =>
    simp only [Entries.find] at hn
    simp only [Obj.lookup] at hv
    simp only [Obj.assign]
    split at hn
    · rename_i hk
      rw [if_pos hk] at hv
      cases hn
      cases hv
      have e0 := hg _ h1
      subst e0
      subst hk
      rw [if_pos rfl]
      refine ⟨g' ++ g0, .cons hx (h2.frame hl fun a ha => hout a fun hf => h3 a hf ha) ?_, ?_⟩
      · intro a ha hb
        rcases hs a ha with ha | ha
        · exact h3 a ha hb
        · exact hd a ha (by simp [hb])
      · intro a ha
        rcases List.mem_append.1 ha with ha | ha
        · rcases hs a ha with ha | ha <;> simp [ha]
        · simp [ha]
    · rename_i hk
      rw [if_neg hk] at hv
      rw [if_neg hk]
      have hsub : ∀ a ∈ g, a ∈ g0 := by
        obtain ⟨w, g2, e1, e2, e3⟩ := h2.find_some hn
        rw [hv] at e1
        cases e1
        rw [← hg _ e2]; exact e3
      obtain ⟨f', e1, e2⟩ := h2.update hl hn hv hg hout hx hs (fun a ha hb => hd a ha (by simp [hb]))
      refine ⟨f0 ++ f', .cons (h1.frame hl fun a ha => hout a fun hb => h3 a ha (hsub a hb)) e1 ?_, ?_⟩
      · intro a ha hb
        rcases e2 a hb with hb | hb
        · exact h3 a ha hb
        · exact hd a hb (by simp [ha])
      · intro a ha
        rcases List.mem_append.1 ha with ha | ha
        · simp [ha]
        · rcases e2 a ha with ha | ha <;> simp [ha]

mutual
theorem Reads.unique {h : Heap} {x v f} (k : Reads h x v f) {v' f'} (k' : Reads h x v' f') : v = v' ∧ f = f' := by
  match k with
  | .nil => cases k'; exact ⟨rfl, rfl⟩
  | .atom => cases k'; exact ⟨rfl, rfl⟩
  | .arr => cases k'; exact ⟨rfl, rfl⟩
  | .ref h1 h2 h3 =>
    cases k' with
    | ref h1' h2' h3' =>
      obtain ⟨rfl, rfl⟩ := h2.unique h2'
      exact ⟨rfl, rfl⟩
theorem ReadsE.unique {h : Heap} {x v f} (k : ReadsE h x v f) {v' f'} (k' : ReadsE h x v' f') : v = v' ∧ f = f' := by
  match k with
  | .nil => cases k'; exact ⟨rfl, rfl⟩
  | .cons h1 h2 h3 =>
    cases k' with
    | cons h1' h2' h3' =>
      obtain ⟨rfl, rfl⟩ := h1.unique h1'
      obtain ⟨rfl, rfl⟩ := h2.unique h2'
      exact ⟨rfl, rfl⟩
end

theorem map_set (h : Heap) (a : Nat) (es : Entries) (ha : a < h.length) :
    Heap.map (h.set a es) a = es ∧ ∀ b, b ≠ a → Heap.map (h.set a es) b = h.map b := by
  constructor
  · simp [Heap.map, ha]
  · intro b hb
    simp [Heap.map, Ne.symm hb]

theorem ReadsE.apart {h : Heap} {es o f} (k : ReadsE h es o f) {k1 k2 : Key} (hne : k1 ≠ k2) {x1 x2 v1 v2 g1 g2}
    (h1 : es.find k1 = some x1) (h2 : es.find k2 = some x2) (r1 : Reads h x1 v1 g1) (r2 : Reads h x2 v2 g2) :
    ∀ a ∈ g1, a ∉ g2 := by
  match k with
  | .nil => cases h1
  | .cons (k := k0) (x := x0) (f := f0) (g := g0) hx hr hd =>
    simp only [Entries.find] at h1 h2
    split at h1
    · rename_i e1
      cases h1
      rw [if_neg (fun e2 => hne (e1.symm.trans e2))] at h2
      obtain ⟨v, g, -, e2, e3⟩ := hr.find_some h2
      obtain ⟨-, rfl⟩ := e2.unique r2
      obtain ⟨-, rfl⟩ := hx.unique r1
      exact fun a ha hb => hd a ha (e3 a hb)
    · rename_i e1
      split at h2
      · rename_i e2
        cases h2
        obtain ⟨v, g, -, e2, e3⟩ := hr.find_some h1
        obtain ⟨-, rfl⟩ := e2.unique r1
        obtain ⟨-, rfl⟩ := hx.unique r2
        exact fun a ha hb => hd a hb (e3 a ha)
      · exact hr.apart hne h1 h2 r1 r2

theorem find_assign_ne (es : Entries) {k k' : Key} (hne : k' ≠ k) (x : HVal) :
    (Entries.assign k x es).find k' = es.find k' := by
  induction es with
  | nil => simp [Entries.assign, Entries.find, Ne.symm hne]
  | cons p es ih =>
    obtain ⟨k0, x0⟩ := p
    simp only [Entries.assign]
    split
    · rename_i h; subst h; simp [Entries.find, Ne.symm hne]
    · simp only [Entries.find, ih]

/-- The maps a merge of the given keys may write to: the destination and what it holds under these keys. -/
def Touched (h : Heap) (dst : Nat) (keys : List Key) (a : Nat) : Prop :=
  a = dst ∨ ∃ k ∈ keys, ∃ x v g, (h.map dst).find k = some x ∧ Reads h x v g ∧ a ∈ g

/-- What a merge does to the heap. -/
structure MergeOk (h h' : Heap) (dst : Nat) (keys : List Key) (D' : Obj) (F1 F2 : List Nat) : Prop where
  len : h'.length = h.length
  same : ∀ a, ¬ Touched h dst keys a → h'.map a = h.map a
  reads : ∃ F, Reads h' (.ref dst) (.obj D') F ∧ ∀ a ∈ F, a ∈ F1 ∨ a ∈ F2
  finds : ∀ k, k ∉ keys → (h'.map dst).find k = (h.map dst).find k

theorem touched_sub {h : Heap} {dst : Nat} {keys : List Key} {D : Obj} {F : List Nat}
    (hD : Reads h (.ref dst) (.obj D) F) {a : Nat} (ha : Touched h dst keys a) : a ∈ F := by
  cases hD with
  | ref h1 h2 h3 =>
    rcases ha with rfl | ⟨k, -, x, v, g, e1, e2, e3⟩
    · simp
    · obtain ⟨v', g', -, r, hs⟩ := h2.find_some e1
      obtain ⟨-, rfl⟩ := r.unique e2
      simp [hs a e3]

theorem MergeOk.append {h h1 h2 : Heap} {dst : Nat} {k : Key} {keys : List Key} {D D1 D2 : Obj}
    {F1 Fa Fb F : List Nat} (hD : Reads h (.ref dst) (.obj D) F1)
    (k1 : MergeOk h h1 dst [k] D1 F1 Fa) (hs : ∀ a ∈ F, a ∈ F1 ∨ a ∈ Fa)
    (k2 : MergeOk h1 h2 dst keys D2 F Fb) (hk : k ∉ keys) : MergeOk h h2 dst (k :: keys) D2 F1 (Fa ++ Fb) := by
  refine ⟨k2.len.trans k1.len, ?_, ?_, ?_⟩
  · intro a ha
    have hne : a ≠ dst := fun e => ha (.inl e)
    rw [k2.same a, k1.same a]
    · rintro (e | ⟨k', hk', r⟩)
      · exact hne e
      · simp only [List.mem_singleton] at hk'
        subst hk'
        exact ha (.inr ⟨k', by simp, r⟩)
    · rintro (e | ⟨k', hk', x, v, g, e1, e2, e3⟩)
      · exact hne e
      · have hkk : k' ≠ k := fun e => hk (e ▸ hk')
        rw [k1.finds k' (by simpa using hkk)] at e1
        refine ha (.inr ⟨k', by simp [hk'], x, ?_⟩)
        cases hD with
        | ref r1 r2 r3 =>
          obtain ⟨v0, g0, -, r, hg⟩ := r2.find_some e1
          have r' : Reads h1 x v0 g0 := by
            refine r.frame k1.len fun b hb => k1.same b ?_
            rintro (rfl | ⟨k2, hk2, x2, v2, g2, f1, f2, f3⟩)
            · exact r3 (hg _ hb)
            · simp only [List.mem_singleton] at hk2
              subst hk2
              exact r2.apart hkk e1 f1 r f2 b hb f3
          obtain ⟨-, rfl⟩ := r'.unique e2
          exact ⟨v0, g0, e1, r, e3⟩
  · obtain ⟨G, r2, s2⟩ := k2.reads
    refine ⟨G, r2, fun a ha => ?_⟩
    rcases s2 a ha with h | h
    · rcases hs a h with h | h <;> simp [h]
    · simp [h]
  · intro k' hk'
    simp only [List.mem_cons, not_or] at hk'
    rw [k2.finds k' hk'.2, k1.finds k' (by simpa using hk'.1)]

/-- Storing a value under a key. -/
theorem MergeOk.store {h : Heap} {dst : Nat} {k : Key} {x : HVal} {v : Val} {D : Obj} {F1 f : List Nat}
    (hD : Reads h (.ref dst) (.obj D) F1) (hx : Reads h x v f) (hd : ∀ a ∈ f, a ∉ F1) :
    MergeOk h (h.set dst ((h.map dst).assign k x)) dst [k] (D.assign k v) F1 f := by
  cases hD with
  | ref h1 h2 h3 =>
    rename_i fp
    have ms := map_set h dst ((h.map dst).assign k x) h1
    obtain ⟨f', r, hs⟩ := h2.assign (key := k) hx (fun a ha hb => hd a ha (by simp [hb]))
    have hf' : dst ∉ f' := by
      intro hm
      rcases hs _ hm with hm | hm
      · exact h3 hm
      · exact hd _ hm (by simp)
    refine ⟨by simp, fun a ha => ms.2 a fun e => ha (.inl e), ⟨dst :: f', .ref (by simpa using h1) ?_ hf', ?_⟩, ?_⟩
    · rw [ms.1]
      exact r.frame (by simp) fun b hb => ms.2 b fun e => hf' (e ▸ hb)
    · intro a ha
      rcases List.mem_cons.1 ha with rfl | ha
      · simp
      · rcases hs a ha with ha | ha <;> simp [ha]
    · intro k' hk'
      rw [ms.1]
      exact find_assign_ne _ (by simpa using hk') x

/-- One round of the loop. -/
def hstep (fuel : Nat) (dst : Nat) (h : Heap) (kv : Key × HVal) : Heap :=
  match (h.map dst).find kv.1, kv.2 with
  | some (.ref d), .ref s => hmerge fuel h d s
  | _, .nil => h
  | _, v => h.set dst ((h.map dst).assign kv.1 v)

theorem hmerge_succ (fuel : Nat) (h : Heap) (dst src : Nat) :
    hmerge (fuel + 1) h dst src = (h.map src).foldl (hstep fuel dst) h := rfl

/-- The claim for nested maps, as induction hypothesis. -/
def MergeIH (fuel : Nat) : Prop :=
  ∀ (h : Heap) (dst src : Nat) (D S : Obj) (F1 F2 : List Nat),
    Reads h (.ref dst) (.obj D) F1 → Reads h (.ref src) (.obj S) F2 → (∀ a ∈ F2, a ∉ F1) → S.wf → S.depth < fuel →
    MergeOk h (hmerge fuel h dst src) dst S.keys (mergeMap D S) F1 F2

theorem hstep_ok {fuel : Nat} (ih : MergeIH fuel) {h : Heap} {dst : Nat} {k : Key} {x : HVal} {v : Val} {D : Obj}
    {F1 f : List Nat} (hD : Reads h (.ref dst) (.obj D) F1) (hx : Reads h x v f) (hd : ∀ a ∈ f, a ∉ F1)
    (hw : v.wf) (hdep : v.depth ≤ fuel) :
    MergeOk h (hstep fuel dst h (k, x)) dst [k] (mergeEntry D k v) F1 f := by
  have hst := MergeOk.store (k := k) hD hx hd
  cases hx with
  | nil =>
    have e : hstep fuel dst h (k, .nil) = h := by simp only [hstep]
    rw [e]
    exact ⟨rfl, fun _ _ => rfl, ⟨F1, hD, fun a ha => .inl ha⟩, fun _ _ => rfl⟩
  | atom =>
    rename_i n
    have e : hstep fuel dst h (k, .atom n) = h.set dst ((h.map dst).assign k (.atom n)) := by
      unfold hstep; simp only; split <;> simp_all
    rw [e]; exact hst
  | arr =>
    rename_i n
    have e : hstep fuel dst h (k, .arr n) = h.set dst ((h.map dst).assign k (.arr n)) := by
      unfold hstep; simp only; split <;> simp_all
    rw [e]; exact hst
  | ref h1 h2 h3 =>
    rename_i s svm fp
    cases hD with
    | ref d1 d2 d3 =>
      rename_i F
      by_cases hm : ∃ d, (h.map dst).find k = some (.ref d)
      · obtain ⟨d, hm⟩ := hm
        have e : hstep fuel dst h (k, .ref s) = hmerge fuel h d s := by unfold hstep; simp only [hm]
        obtain ⟨w, g, e1, e2, e3⟩ := d2.find_some hm
        have e2' := e2
        cases e2 with
        | ref g1 g2 g3 =>
          rename_i dvm gp
          have me : mergeEntry D k (.obj svm) = D.assign k (.obj (mergeMap dvm svm)) := by
            simp [mergeEntry, e1]
          rw [e, me]
          have hdep' : svm.depth < fuel := by simp only [Val.depth] at hdep; omega
          have k0 := ih h d s dvm svm (d :: gp) (s :: fp) e2' (.ref h1 h2 h3)
            (fun a ha hb => hd a ha (by simp [e3 a hb])) hw hdep'
          obtain ⟨G, r, hs⟩ := k0.reads
          have hout : ∀ a, a ∉ d :: gp → (hmerge fuel h d s).map a = h.map a := by
            intro a ha
            exact k0.same a fun ht => ha (touched_sub e2' ht)
          have hdst : (hmerge fuel h d s).map dst = h.map dst := by
            apply hout
            intro hin
            exact d3 (e3 _ hin)
          obtain ⟨f', r', hs'⟩ := d2.update k0.len hm e1 (fun g0 hg0 => (hg0.unique e2').2) hout r hs
            (fun a ha hb => hd a ha (by simp [hb]))
          refine ⟨k0.len, ?_, ⟨dst :: f', .ref (by rw [k0.len]; exact d1) (by rw [hdst]; exact r') ?_, ?_⟩, ?_⟩
          · intro a ha
            exact hout a fun hin => ha (.inr ⟨k, by simp, _, _, _, hm, e2', hin⟩)
          · intro hin
            rcases hs' _ hin with hin | hin
            · exact d3 hin
            · exact hd _ hin (by simp)
          · intro a ha
            rcases List.mem_cons.1 ha with rfl | ha
            · simp
            · rcases hs' a ha with ha | ha
              · simp [ha]
              · exact .inr ha
          · intro k' _; rw [hdst]
      · have e : hstep fuel dst h (k, .ref s) = h.set dst ((h.map dst).assign k (.ref s)) := by
          unfold hstep; simp only; split
          · rename_i d _ hf _; exact absurd ⟨_, hf⟩ hm
          · rename_i hx; cases hx
          · rfl
        have me : mergeEntry D k (.obj svm) = D.assign k (.obj svm) := by
          simp only [mergeEntry]
          split
          · rename_i dvm hl
            cases hf : (h.map dst).find k with
            | none => rw [d2.find_none hf] at hl; cases hl
            | some y =>
              obtain ⟨w, g, e1, e2, -⟩ := d2.find_some hf
              rw [hl] at e1
              cases e1
              cases e2
              exact absurd ⟨_, hf⟩ hm
          · rfl
        rw [e, me]; exact hst

theorem fold_ok {fuel : Nat} (ih : MergeIH fuel) (es : Entries) {h : Heap} {dst : Nat} {D S : Obj}
    {F1 f : List Nat} (hD : Reads h (.ref dst) (.obj D) F1) (hx : ReadsE h es S f) (hd : ∀ a ∈ f, a ∉ F1)
    (hw : S.wf) (hdep : S.depth ≤ fuel) :
    MergeOk h (es.foldl (hstep fuel dst) h) dst S.keys (mergeMap D S) F1 f := by
  induction es generalizing h D S F1 f with
  | nil =>
    cases hx
    exact ⟨rfl, fun _ _ => rfl, ⟨F1, hD, fun a ha => .inl ha⟩, fun _ _ => rfl⟩
  | cons p es ihe =>
    obtain ⟨k, x⟩ := p
    cases hx with
    | cons h1 h2 h3 =>
      rename_i v f0 o g
      have hw' : v.wf ∧ k ∉ o.keys ∧ o.wf := by simpa [Obj.wf, and_comm, and_left_comm, and_assoc] using hw
      simp only [Obj.depth] at hdep
      have k1 := hstep_ok ih (k := k) hD h1 (fun a ha => hd a (by simp [ha])) hw'.1 (by omega)
      obtain ⟨F, r, hs⟩ := k1.reads
      have h2' : ReadsE (hstep fuel dst h (k, x)) es o g :=
        h2.frame k1.len fun a ha => k1.same a fun ht => hd a (by simp [ha]) (touched_sub hD ht)
      have k2 := ihe r h2' (by
        intro a ha hb
        rcases hs a hb with hb | hb
        · exact hd a (by simp [ha]) hb
        · exact h3 a hb ha) hw'.2.2 (by omega)
      exact MergeOk.append hD k1 hs k2 hw'.2.1

theorem hmerge_ok (fuel : Nat) : MergeIH fuel := by
  induction fuel with
  | zero => intro h dst src D S F1 F2 _ _ _ _ hf; omega
  | succ fuel ih =>
    intro h dst src D S F1 F2 hD hS hd hw hf
    rw [hmerge_succ]
    cases hS with
    | ref h1 h2 h3 =>
      have k := fold_ok ih _ hD h2 (fun a ha => hd a (by simp [ha])) hw (by omega)
      refine ⟨k.len, k.same, ?_, k.finds⟩
      obtain ⟨F, r, hs⟩ := k.reads
      exact ⟨F, r, fun a ha => (hs a ha).imp id fun h => by simp [h]⟩

/-- **C41.** On maps with identity: merging a map into another that shares no map with it leaves in the destination
the contents `mergeMap` describes, and every map that did not belong to the destination, in particular the source
and all maps in it, is as before.  `fuel` is larger than the nesting of the source. -/
theorem mergeMap_on_heap (h : Heap) (dst src : Nat) (D S : Obj) (F1 F2 : List Nat)
    (hD : Reads h (.ref dst) (.obj D) F1) (hS : Reads h (.ref src) (.obj S) F2) (hd : ∀ a ∈ F2, a ∉ F1)
    (hw : S.wf) (fuel : Nat) (hf : S.depth < fuel) :
    (∃ F, Reads (hmerge fuel h dst src) (.ref dst) (.obj (mergeMap D S)) F) ∧
    Reads (hmerge fuel h dst src) (.ref src) (.obj S) F2 ∧
    ∀ a, a ∉ F1 → (hmerge fuel h dst src).map a = h.map a := by
  have k := hmerge_ok fuel h dst src D S F1 F2 hD hS hd hw hf
  have ho : ∀ a, a ∉ F1 → (hmerge fuel h dst src).map a = h.map a :=
    fun a ha => k.same a fun ht => ha (touched_sub hD ht)
  obtain ⟨F, r, -⟩ := k.reads
  exact ⟨⟨F, r⟩, hS.frame k.len fun a ha => ho a (hd a ha), ho⟩

/-- `{a: {x: 1}}` and `{a: {y: 2}, b: {}}`. -/
example :
    let h : Heap := [[(['a'], .ref 2)], [(['a'], .ref 3), (['b'], .ref 4)], [(['x'], .atom 1)], [(['y'], .atom 2)], []]
    let S : Obj := .cons ['a'] (.obj (.cons ['y'] (.atom 2) .nil)) (.cons ['b'] (.obj .nil) .nil)
    Reads h (.ref 0) (.obj (.cons ['a'] (.obj (.cons ['x'] (.atom 1) .nil)) .nil)) [0, 2] ∧
    Reads h (.ref 1) (.obj S) [1, 3, 4] ∧ S.wf ∧ S.depth = 1 ∧
    (hmerge 2 h 0 1).map 2 = [(['x'], .atom 1), (['y'], .atom 2)] := by
  refine ⟨?_, ?_, by simp [Obj.wf, Val.wf, Obj.keys], rfl, by decide⟩
  · exact .ref (by decide) (.cons (f := [2]) (g := []) (.ref (by decide) (.cons (f := []) (g := []) .atom .nil (by simp))
      (by simp)) .nil (by simp)) (by simp)
  · exact .ref (by decide) (.cons (f := [3]) (g := [4]) (.ref (by decide) (.cons (f := []) (g := []) .atom .nil (by simp))
      (by simp)) (.cons (f := [4]) (g := []) (.ref (by decide) .nil (by simp)) .nil (by simp)) (by simp)) (by simp)

/-- **C41 is violated** for the sources of `MergeMaps`: they are not only read.  Map 0 is dst, empty; map 1, the
first source, is `{a: map 3}`; map 2, the second source, is `{a: map 4}`; 3 is `{x: 10}` and 4 is `{x: 20}`.
After `MergeMaps(dst, first, second)` the first source's nested map 3 holds 20: `dst` shares it. -/
theorem mergeMaps_aliasing_violated :
    let h : Heap := [[], [(['a'], .ref 3)], [(['a'], .ref 4)], [(['x'], .atom 10)], [(['x'], .atom 20)]]
    (hmerge 3 (hmerge 3 h 0 1) 0 2).map 3 = [(['x'], .atom 20)] := by
  decide

end Mole.Util
