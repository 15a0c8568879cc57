import Verif.Graph.Cfg

/-! Lemmas about the control flow graph's heap: footprints, walks, and what the operations on blocks do. -/

namespace Mole.Cfg

namespace Heap

/-- The edges going into a block. -/
abbrev I (h : Heap) (b : Nat) : List Nat := h.emap (h.blk b).ins

/-- The edges going out of a block. -/
abbrev O (h : Heap) (b : Nat) : List Nat := h.emap (h.blk b).outs

/-- A block that holds nodes, as opposed to a group. -/
def Ng (h : Heap) (b : Nat) : Prop := (h.blk b).kind = .basic ∨ (h.blk b).kind = .start

/-- A block of either sort. -/
def IsB (h : Heap) (b : Nat) : Prop := (h.blk b).kind ≠ .none

theorem Ng.isB {h : Heap} {b : Nat} (k : h.Ng b) : h.IsB b := by
  rcases k with k | k <;> simp [IsB, k]

end Heap

/-- The nodes of the tree among a block's nodes. -/
def vis : List Node → List Nat
  | [] => []
  | .atom i :: r => i :: vis r
  | _ :: r => vis r

theorem vis_append (a b : List Node) : vis (a ++ b) = vis a ++ vis b := by
  induction a with
  | nil => rfl
  | cons n r ih => cases n <;> simp [vis, ih]

/-- A walk along outgoing edges, and the nodes it passes. -/
inductive Walk (h : Heap) (a : Nat) : List Nat → Nat → Prop
  | one : Walk h a (vis (h.blk a).nodes) a
  | step {ns : List Nat} {b c d : Nat} : Walk h a ns b → d ∈ h.O b → (h.edge d).dst = some c →
      Walk h a (ns ++ vis (h.blk c).nodes) c

theorem Walk.trans {h : Heap} {a b c d y : Nat} {ns ms : List Nat} (w : Walk h a ns b) (m : d ∈ h.O b)
    (e : (h.edge d).dst = some c) (v : Walk h c ms y) : Walk h a (ns ++ ms) y := by
  induction v with
  | one => exact w.step m e
  | step _ m' e' ih => rw [← List.append_assoc]; exact ih.step m' e'

/-- A walk up to a block that `d` leaves. -/
def PE (h : Heap) (a : Nat) (ns : List Nat) (d : Nat) : Prop :=
  ∃ x, Walk h a ns x ∧ (h.edge d).src = some x ∧ d ∈ h.O x

/-- The beginning of a walk. -/
def Pre (h : Heap) (a : Nat) (ns : List Nat) : Prop := ∃ x w, Walk h a w x ∧ ns <+: w

theorem PE.pre {h : Heap} {a d : Nat} {ns : List Nat} : PE h a ns d → Pre h a ns
  | ⟨x, w, _, _⟩ => ⟨x, ns, w, List.prefix_rfl⟩

theorem PE.pre_of {h : Heap} {a d : Nat} {ns ms : List Nat} (p : PE h a ns d) (k : ms <+: ns) : Pre h a ms :=
  let ⟨x, w, _, _⟩ := p
  ⟨x, ns, w, k⟩

/-- Two tags differ at most in ET_CUT. -/
def Tag.Like (a b : Tag) : Prop := { a with cut := false } = { b with cut := false }

theorem Tag.Like.refl (a : Tag) : a.Like a := rfl

theorem Tag.Like.trans {a b c : Tag} (x : a.Like b) (y : b.Like c) : a.Like c := Eq.trans x y

theorem Tag.like_cut (a : Tag) : a.withCut.Like a := rfl

/-- The part of the heap named by `S` is well formed and refers to nothing outside. -/
structure Reg (h : Heap) (S : Nat → Prop) : Prop where
  lt : ∀ i, S i → i < h.next
  ins : ∀ b, S b → h.IsB b → S (h.blk b).ins
  outs : ∀ b, S b → h.IsB b → S (h.blk b).outs
  memI : ∀ b, S b → h.IsB b → ∀ d ∈ h.I b, S d
  memO : ∀ b, S b → h.IsB b → ∀ d ∈ h.O b, S d
  srcI : ∀ b, S b → h.IsB b → ∀ d ∈ h.I b, ∀ x, (h.edge d).src = some x → S x ∧ h.Ng x
  srcO : ∀ b, S b → h.IsB b → ∀ d ∈ h.O b, ∀ x, (h.edge d).src = some x → S x ∧ h.Ng x
  dstO : ∀ b, S b → h.IsB b → ∀ d ∈ h.O b, ∀ x, (h.edge d).dst = some x → S x ∧ h.Ng x
  insDst : ∀ b, S b → h.Ng b → ∀ d ∈ h.I b, (h.edge d).dst = some b
  inj : ∀ a b, S a → h.Ng a → S b → h.Ng b → (h.blk a).ins = (h.blk b).ins → a = b
  sep : ∀ a b, S a → h.IsB a → S b → h.IsB b → (h.blk a).ins ≠ (h.blk b).outs
  sepE : ∀ a b, S a → h.IsB a → S b → h.IsB b → ∀ d ∈ h.I a, d ∉ h.O b

/-- Two heaps agree on the part named by `S`. -/
structure Agree (h h' : Heap) (S : Nat → Prop) : Prop where
  blk : ∀ i, S i → h'.blk i = h.blk i
  edge : ∀ i, S i → h'.edge i = h.edge i
  emap : ∀ i, S i → h'.emap i = h.emap i

theorem Agree.mono {h h' : Heap} {S T : Nat → Prop} (a : Agree h h' T) (k : ∀ i, S i → T i) : Agree h h' S :=
  ⟨fun i s => a.blk i (k i s), fun i s => a.edge i (k i s), fun i s => a.emap i (k i s)⟩

theorem Agree.trans {h h' h'' : Heap} {S : Nat → Prop} (a : Agree h h' S) (b : Agree h' h'' S) : Agree h h'' S :=
  ⟨fun i s => (b.blk i s).trans (a.blk i s), fun i s => (b.edge i s).trans (a.edge i s),
    fun i s => (b.emap i s).trans (a.emap i s)⟩

theorem Agree.refl (h : Heap) (S : Nat → Prop) : Agree h h S := ⟨fun _ _ => rfl, fun _ _ => rfl, fun _ _ => rfl⟩

section agree

variable {h h' : Heap} {S : Nat → Prop}

theorem Agree.ng (a : Agree h h' S) {b : Nat} (s : S b) : h'.Ng b ↔ h.Ng b := by simp [Heap.Ng, a.blk b s]

theorem Agree.isB (a : Agree h h' S) {b : Nat} (s : S b) : h'.IsB b ↔ h.IsB b := by simp [Heap.IsB, a.blk b s]

theorem Agree.I (a : Agree h h' S) (r : Reg h S) {b : Nat} (s : S b) (k : h.IsB b) : h'.I b = h.I b := by
  simp only [Heap.I]
  rw [a.blk b s, a.emap _ (r.ins b s k)]

theorem Agree.O (a : Agree h h' S) (r : Reg h S) {b : Nat} (s : S b) (k : h.IsB b) : h'.O b = h.O b := by
  simp only [Heap.O]
  rw [a.blk b s, a.emap _ (r.outs b s k)]

theorem Reg.agree (r : Reg h S) (a : Agree h h' S) (n : h.next ≤ h'.next) : Reg h' S where
  lt i s := Nat.lt_of_lt_of_le (r.lt i s) n
  ins b s k := by rw [a.blk b s]; exact r.ins b s ((a.isB s).mp k)
  outs b s k := by rw [a.blk b s]; exact r.outs b s ((a.isB s).mp k)
  memI b s k d m := by
    have k := (a.isB s).mp k
    rw [a.I r s k] at m; exact r.memI b s k d m
  memO b s k d m := by
    have k := (a.isB s).mp k
    rw [a.O r s k] at m; exact r.memO b s k d m
  srcI b s k d m x e := by
    have k := (a.isB s).mp k
    rw [a.I r s k] at m
    rw [a.edge d (r.memI b s k d m)] at e
    obtain ⟨p, q⟩ := r.srcI b s k d m x e
    exact ⟨p, (a.ng p).mpr q⟩
  srcO b s k d m x e := by
    have k := (a.isB s).mp k
    rw [a.O r s k] at m
    rw [a.edge d (r.memO b s k d m)] at e
    obtain ⟨p, q⟩ := r.srcO b s k d m x e
    exact ⟨p, (a.ng p).mpr q⟩
  dstO b s k d m x e := by
    have k := (a.isB s).mp k
    rw [a.O r s k] at m
    rw [a.edge d (r.memO b s k d m)] at e
    obtain ⟨p, q⟩ := r.dstO b s k d m x e
    exact ⟨p, (a.ng p).mpr q⟩
  insDst b s k d m := by
    have k := (a.ng s).mp k
    rw [a.I r s k.isB] at m
    rw [a.edge d (r.memI b s k.isB d m)]
    exact r.insDst b s k d m
  inj b c s k t l := by
    rw [a.blk b s, a.blk c t]
    exact r.inj b c s ((a.ng s).mp k) t ((a.ng t).mp l)
  sep b c s k t l := by
    rw [a.blk b s, a.blk c t]
    exact r.sep b c s ((a.isB s).mp k) t ((a.isB t).mp l)
  sepE b c s k t l d m := by
    have k := (a.isB s).mp k
    have l := (a.isB t).mp l
    rw [a.O r t l]
    rw [a.I r s k] at m
    exact r.sepE b c s k t l d m

/-- Walks do not leave the region. -/
theorem Walk.inside (r : Reg h S) {a x : Nat} {ns : List Nat} (w : Walk h a ns x) (s : S a) (k : h.IsB a) : S x ∧ h.IsB x := by
  induction w with
  | one => exact ⟨s, k⟩
  | step w m e ih =>
    obtain ⟨p, q⟩ := r.dstO _ ih.1 ih.2 _ m _ e
    exact ⟨p, q.isB⟩

theorem Walk.agree (r : Reg h S) (a : Agree h h' S) {b x : Nat} {ns : List Nat} (w : Walk h b ns x) (s : S b) (k : h.IsB b) :
    Walk h' b ns x := by
  induction w with
  | one => rw [← a.blk b s]; exact .one
  | step w m e ih =>
    obtain ⟨p, q⟩ := w.inside r s k
    have mem := r.memO _ p q _ m
    obtain ⟨p', q'⟩ := r.dstO _ p q _ m _ e
    rw [← a.blk _ p']
    exact ih.step (by rw [a.O r p q]; exact m) (by rw [a.edge _ mem]; exact e)

theorem PE.agree (r : Reg h S) (a : Agree h h' S) {b d : Nat} {ns : List Nat} (w : PE h b ns d) (s : S b) (k : h.IsB b) :
    PE h' b ns d := by
  obtain ⟨x, w, e, m⟩ := w
  obtain ⟨p, q⟩ := w.inside r s k
  refine ⟨x, w.agree r a s k, ?_, ?_⟩
  · rw [a.edge d (r.memO x p q d m)]; exact e
  · rw [a.O r p q]; exact m

theorem Pre.agree (r : Reg h S) (a : Agree h h' S) {b : Nat} {ns : List Nat} (w : Pre h b ns) (s : S b) (k : h.IsB b) :
    Pre h' b ns := by
  obtain ⟨x, v, w, p⟩ := w
  exact ⟨x, v, w.agree r a s k, p⟩

end agree

/-- Two well formed parts together are well formed. -/
theorem Reg.union {h : Heap} {S T : Nat → Prop} (r : Reg h S) (t : Reg h T) (dis : ∀ i, S i → ¬ T i) :
    Reg h (fun i => S i ∨ T i) where
  lt i s := s.elim (r.lt i) (t.lt i)
  ins b s k := s.elim (fun s => .inl (r.ins b s k)) (fun s => .inr (t.ins b s k))
  outs b s k := s.elim (fun s => .inl (r.outs b s k)) (fun s => .inr (t.outs b s k))
  memI b s k d m := s.elim (fun s => .inl (r.memI b s k d m)) (fun s => .inr (t.memI b s k d m))
  memO b s k d m := s.elim (fun s => .inl (r.memO b s k d m)) (fun s => .inr (t.memO b s k d m))
  srcI b s k d m x e := s.elim (fun s => (r.srcI b s k d m x e).imp .inl id) (fun s => (t.srcI b s k d m x e).imp .inr id)
  srcO b s k d m x e := s.elim (fun s => (r.srcO b s k d m x e).imp .inl id) (fun s => (t.srcO b s k d m x e).imp .inr id)
  dstO b s k d m x e := s.elim (fun s => (r.dstO b s k d m x e).imp .inl id) (fun s => (t.dstO b s k d m x e).imp .inr id)
  insDst b s k d m := s.elim (fun s => r.insDst b s k d m) (fun s => t.insDst b s k d m)
  inj a b s k u l e := by
    rcases s with s | s <;> rcases u with u | u
    · exact r.inj a b s k u l e
    · have p := r.ins a s k.isB
      rw [e] at p
      exact absurd (t.ins b u l.isB) (dis _ p)
    · have p := t.ins a s k.isB
      rw [e] at p
      exact absurd p (dis _ (r.ins b u l.isB))
    · exact t.inj a b s k u l e
  sep a b s k u l := by
    rcases s with s | s <;> rcases u with u | u
    · exact r.sep a b s k u l
    · intro e
      have p := r.ins a s k
      rw [e] at p
      exact dis _ p (t.outs b u l)
    · intro e
      have p := t.ins a s k
      rw [e] at p
      exact dis _ (r.outs b u l) p
    · exact t.sep a b s k u l
  sepE a b s k u l d m n := by
    rcases s with s | s <;> rcases u with u | u
    · exact r.sepE a b s k u l d m n
    · exact dis _ (r.memI a s k d m) (t.memO b u l d n)
    · exact dis _ (r.memO b u l d n) (t.memI a s k d m)
    · exact t.sepE a b s k u l d m n

end Mole.Cfg
