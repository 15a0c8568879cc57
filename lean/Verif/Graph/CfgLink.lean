import Verif.Graph.CfgHeap

/-! What `link` does when it adds edges. -/

namespace Mole.Cfg

theorem upd_self {α : Type} (f : Nat → α) (i : Nat) (v : α) : upd f i v i = v := by simp [upd]

theorem upd_ne {α : Type} (f : Nat → α) {i j : Nat} (v : α) (k : j ≠ i) : upd f i v j = f j := by simp [upd, k]

section pick

variable {ω : Order} (fair : ω.Fair) {h : Heap} {site m : Nat} {p : Edge → Bool}

include fair

theorem mem_range {d : Nat} : d ∈ h.range ω site m ↔ d ∈ h.emap m := (fair _ _ _).mem_iff

theorem pick_some {d : Nat} (e : h.pick ω site m p = some d) : d ∈ h.emap m ∧ p (h.edge d) = true := by
  have q := List.find?_some e
  exact ⟨(mem_range fair).mp (List.mem_of_find?_eq_some e), q⟩

theorem pick_none (e : h.pick ω site m p = none) {d : Nat} (k : d ∈ h.emap m) : p (h.edge d) = false := by
  have q := List.find?_eq_none.mp e d ((mem_range fair).mpr k)
  simpa using q

theorem pick_isSome {d : Nat} (k : d ∈ h.emap m) (q : p (h.edge d) = true) : ∃ c, h.pick ω site m p = some c := by
  cases e : h.pick ω site m p with
  | some c => exact ⟨c, rfl⟩
  | none => rw [pick_none fair e k] at q; exact absurd q (by simp)

end pick

/-- What adding edges from `ds` to block `to` does: the edges satisfying `C` now lead to it. -/
structure Lk (h h' : Heap) (ds : List Nat) (to : Nat) (C : Nat → Prop) : Prop where
  next : h.next ≤ h'.next
  blk : h'.blk = h.blk
  emap : ∀ m, m ≠ (h.blk to).ins → h'.emap m = h.emap m
  grow : ∃ l, h'.I to = h.I to ++ l ∧ ∀ i ∈ l, h.next ≤ i ∧ i < h'.next
  dstI : ∀ i ∈ h'.I to, (h'.edge i).dst = some to
  kindI : ∀ i ∈ h.I to, (h'.edge i).kind = (h.edge i).kind
  srcI : ∀ i ∈ h'.I to, ∀ x, (h'.edge i).src = some x →
    (i ∈ h.I to ∧ (h.edge i).src = some x) ∨ ∃ c ∈ ds, (h.edge c).src = some x
  kind : ∀ d, d < h.next → (h'.edge d).kind = (h.edge d).kind
  like : ∀ d, d < h.next → d ∉ h.I to → (h'.edge d).tag.Like (h.edge d).tag
  src : ∀ d, d < h.next → d ∉ h.I to → (h'.edge d).src = (h.edge d).src
  hit : ∀ d, d < h.next → C d → (h'.edge d).dst = some to
  miss : ∀ d, d < h.next → ¬ C d → (h'.edge d).dst = (h.edge d).dst
  frame : ∀ d, d < h.next → d ∉ ds → d ∉ h.I to → d ∉ h.O to → h'.edge d = h.edge d

theorem Lk.I {h h' : Heap} {ds : List Nat} {to : Nat} {C : Nat → Prop} (l : Lk h h' ds to C) : ∀ i ∈ h.I to, i ∈ h'.I to := by
  intro i m
  obtain ⟨l', e, _⟩ := l.grow
  rw [e]; exact List.mem_append_left _ m

theorem Lk.trans {h h' h'' : Heap} {ds ds' : List Nat} {to : Nat} {C C' : Nat → Prop} (lt : ∀ d ∈ ds', d < h.next)
    (sep : (h.blk to).outs ≠ (h.blk to).ins)
    (notI : ∀ d ∈ ds', d ∉ h.I to)
    (a : Lk h h' ds to C) (b : Lk h' h'' ds' to C') : Lk h h'' (ds ++ ds') to (fun d => C d ∨ C' d) := by
  have lt' : ∀ d, d < h.next → d < h'.next := fun d k => Nat.lt_of_lt_of_le k a.next
  obtain ⟨l, el, hl⟩ := a.grow
  obtain ⟨l', el', hl'⟩ := b.grow
  have notI' : ∀ d, d < h.next → d ∉ h.I to → d ∉ h'.I to := by
    intro d k n m
    rw [el] at m
    rcases List.mem_append.mp m with m | m
    · exact n m
    · have := (hl d m).1; omega
  have eO : h'.O to = h.O to := by
    simp only [Heap.O]
    rw [a.blk, a.emap _ sep]
  refine ⟨Nat.le_trans a.next b.next, b.blk.trans a.blk, ?_, ⟨l ++ l', ?_, ?_⟩, b.dstI, ?_, ?_, ?_, ?_, ?_, ?_, ?_, ?_⟩
  · intro m k
    rw [b.emap m (by rw [a.blk]; exact k), a.emap m k]
  · rw [el', el, List.append_assoc]
  · intro i m
    rcases List.mem_append.mp m with m | m
    · have := hl i m; have := b.next; omega
    · have := hl' i m; have := a.next; omega
  · intro i m
    rw [b.kindI i (a.I i m), a.kindI i m]
  · intro i m x e
    rcases b.srcI i m x e with ⟨m', e'⟩ | ⟨c, k, e'⟩
    · rcases a.srcI i m' x e' with q | ⟨c, k, e'⟩
      · exact .inl q
      · exact .inr ⟨c, List.mem_append_left _ k, e'⟩
    · refine .inr ⟨c, List.mem_append_right _ k, ?_⟩
      rw [← a.src c (lt c k) (notI c k)]; exact e'
  · intro d k
    rw [b.kind d (lt' d k), a.kind d k]
  · intro d k n
    exact (b.like d (lt' d k) (notI' d k n)).trans (a.like d k n)
  · intro d k n
    rw [b.src d (lt' d k) (notI' d k n), a.src d k n]
  · intro d k c
    by_cases c' : C' d
    · exact b.hit d (lt' d k) c'
    · rw [b.miss d (lt' d k) c']
      exact a.hit d k (c.resolve_right c')
  · intro d k c
    rw [b.miss d (lt' d k) (fun q => c (.inr q)), a.miss d k (fun q => c (.inl q))]
  · intro d k n n' n''
    have n0 := fun q => n (List.mem_append.mpr q)
    rw [b.frame d (lt' d k) (fun q => n0 (.inr q)) (notI' d k n') (by rw [eO]; exact n''),
      a.frame d k (fun q => n0 (.inl q)) n' n'']

/-- Nothing was done. -/
theorem Lk.refl {h : Heap} {to : Nat} (dst0 : ∀ i ∈ h.I to, (h.edge i).dst = some to) (ds : List Nat) :
    Lk h h ds to (fun _ => False) where
  next := Nat.le_refl _
  blk := rfl
  emap _ _ := rfl
  grow := ⟨[], by simp, by simp⟩
  dstI := dst0
  kindI _ _ := rfl
  srcI i m x e := .inl ⟨m, e⟩
  kind _ _ := rfl
  like _ _ _ := rfl
  src _ _ _ := rfl
  hit _ _ := False.elim
  miss _ _ _ := rfl
  frame _ _ _ _ _ := rfl

section linkOne

variable {ω : Order} (fair : ω.Fair) {h : Heap} {S : Nat → Prop} (r : Reg h S) {to : Nat} (sto : S to) (nto : h.Ng to)

include r sto nto

/-- The last step of `linkOne`: in-edge `i`, old or new, is given its source and tag. -/
theorem lk_finish {h1 : Heap} {d i : Nat} {v : Edge} (ld : d < h.next) (nd : d ∉ h.I to)
    (n1 : h.next ≤ h1.next) (b1 : h1.blk = h.blk) (m1 : ∀ m, m ≠ (h.blk to).ins → h1.emap m = h.emap m)
    (g1 : (h1.I to = h.I to ∧ i ∈ h.I to) ∨ (h1.I to = h.I to ++ [i] ∧ i = h.next ∧ i < h1.next))
    (e1 : ∀ c, c < h.next → c ≠ d → h1.edge c = h.edge c)
    (ed : h1.edge d = if (h.edge d).dst = none then { h.edge d with dst := some to } else h.edge d)
    (ei : (h1.edge i).dst = some to) (v0 : v = { h1.edge i with src := (h.edge d).src, tag := (h.edge d).tag }) :
    Lk h (h1.setEdge i v) [d] to (fun c => c = d ∧ (h.edge d).dst = none) := by
  have ni : i ≠ d := by
    rcases g1 with ⟨_, m⟩ | ⟨_, m, _⟩
    · intro e; rw [e] at m; exact nd m
    · omega
  have old : ∀ c, c < h.next → c ∉ h.I to → (h1.setEdge i v).edge c = h1.edge c := by
    intro c k n
    refine upd_ne _ _ ?_
    rcases g1 with ⟨_, m⟩ | ⟨_, m, _⟩
    · intro e; rw [e] at n; exact n m
    · omega
  have dI := r.insDst to sto nto
  have ltI : ∀ c ∈ h.I to, c < h.next := fun c m => r.lt c (r.memI to sto nto.isB c m)
  have eI : ∀ c ∈ h.I to, h1.edge c = h.edge c := fun c m => e1 c (ltI c m) (fun e => nd (e ▸ m))
  have kd : (h1.edge d).kind = (h.edge d).kind := by rw [ed]; split <;> rfl
  have sd : (h1.edge d).src = (h.edge d).src := by rw [ed]; split <;> rfl
  have td : (h1.edge d).tag = (h.edge d).tag := by rw [ed]; split <;> rfl
  have self : (h1.setEdge i v).edge i = v := upd_self _ _ _
  have eIto : (h1.setEdge i v).I to = h1.I to := rfl
  refine ⟨n1, b1, m1, ?_, ?_, ?_, ?_, ?_, ?_, ?_, ?_, ?_, ?_⟩
  · rcases g1 with ⟨g, m⟩ | ⟨g, m, k⟩
    · exact ⟨[], by rw [eIto, g, List.append_nil], by simp⟩
    · exact ⟨[i], by rw [eIto, g], by simp only [List.mem_singleton]; rintro _ rfl; exact ⟨Nat.le_of_eq m.symm, k⟩⟩
  · intro c m
    rw [eIto] at m
    by_cases e : c = i
    · rw [e, self, v0]; exact ei
    · rw [show (h1.setEdge i v).edge c = h1.edge c from upd_ne _ _ e]
      have m' : c ∈ h.I to := by
        rcases g1 with ⟨g, _⟩ | ⟨g, _, _⟩
        · rw [g] at m; exact m
        · rw [g] at m
          rcases List.mem_append.mp m with m | m
          · exact m
          · exact absurd (List.mem_singleton.mp m) e
      rw [eI c m']; exact dI c m'
  · intro c m
    by_cases e : c = i
    · rw [e, self, v0]; show (h1.edge i).kind = _; rw [eI i (e ▸ m)]
    · rw [show (h1.setEdge i v).edge c = h1.edge c from upd_ne _ _ e, eI c m]
  · intro c m x e
    by_cases q : c = i
    · rw [q, self, v0] at e
      exact .inr ⟨d, by simp, e⟩
    · rw [show (h1.setEdge i v).edge c = h1.edge c from upd_ne _ _ q] at e
      have m' : c ∈ h.I to := by
        rw [eIto] at m
        rcases g1 with ⟨g, _⟩ | ⟨g, _, _⟩
        · rw [g] at m; exact m
        · rw [g] at m
          rcases List.mem_append.mp m with m | m
          · exact m
          · exact absurd (List.mem_singleton.mp m) q
      rw [eI c m'] at e
      exact .inl ⟨m', e⟩
  · intro c k
    by_cases q : c = i
    · rw [q, self, v0]
      show (h1.edge i).kind = _
      rw [e1 i (q ▸ k) ni]
    · rw [show (h1.setEdge i v).edge c = h1.edge c from upd_ne _ _ q]
      by_cases e : c = d
      · rw [e]; exact kd
      · rw [e1 c k e]
  · intro c k n
    rw [old c k n]
    by_cases e : c = d
    · rw [e, td]; exact .refl _
    · rw [e1 c k e]; exact .refl _
  · intro c k n
    rw [old c k n]
    by_cases e : c = d
    · rw [e, sd]
    · rw [e1 c k e]
  · rintro c k ⟨rfl, e⟩
    rw [old c k nd, ed, if_pos e]
  · intro c k n
    by_cases q : c = i
    · rw [q, self, v0]
      show (h1.edge i).dst = _
      rw [e1 i (q ▸ k) ni]
    · rw [show (h1.setEdge i v).edge c = h1.edge c from upd_ne _ _ q]
      by_cases e : c = d
      · rw [e, ed, if_neg (fun z => n ⟨e, z⟩)]
      · rw [e1 c k e]
  · intro c k n n' _
    rw [old c k n', e1 c k (fun e => n (by simp [e]))]

include fair

theorem linkOne_lk (tk : EK) (tt : Tag) {d : Nat} (ld : d < h.next) (nd : d ∉ h.I to) :
    Lk h (h.linkOne ω tk tt to false d) [d] to (fun c => c = d ∧ (h.edge d).dst = none) ∧
      ∃ i ∈ (h.linkOne ω tk tt to false d).I to, ((h.linkOne ω tk tt to false d).edge i).kind = tk := by
  have dI := r.insDst to sto nto
  have ltI : ∀ c ∈ h.I to, c < h.next := fun c m => r.lt c (r.memI to sto nto.isB c m)
  let e := h.edge d
  let h0 := h.setEdge d (if decide (e.dst = none) || false then { e with dst := some to } else e)
  have ed : h0.edge d = if (h.edge d).dst = none then { h.edge d with dst := some to } else h.edge d := by
    show upd _ d _ d = _
    rw [upd_self]
    by_cases k : (h.edge d).dst = none <;> simp [e, k]
  have e0 : ∀ c, c ≠ d → h0.edge c = h.edge c := fun c k => upd_ne _ _ k
  have i0 : h0.I to = h.I to := rfl
  have fresh : (h0.newEdge (h0.blk to).ins ⟨tk, tt, none, some to⟩).1.I to = h.I to ++ [h.next] := by
    show upd h.emap (h.blk to).ins (h.emap (h.blk to).ins ++ [h.next]) (h.blk to).ins = _
    rw [upd_self]
  have new : Lk h (let p := h0.newEdge (h0.blk to).ins ⟨tk, tt, none, some to⟩
      p.1.setEdge p.2 { p.1.edge p.2 with src := e.src, tag := e.tag }) [d] to (fun c => c = d ∧ (h.edge d).dst = none) ∧
      ∃ i ∈ (let p := h0.newEdge (h0.blk to).ins ⟨tk, tt, none, some to⟩
        p.1.setEdge p.2 { p.1.edge p.2 with src := e.src, tag := e.tag }).I to,
        ((let p := h0.newEdge (h0.blk to).ins ⟨tk, tt, none, some to⟩
          p.1.setEdge p.2 { p.1.edge p.2 with src := e.src, tag := e.tag }).edge i).kind = tk := by
    refine ⟨lk_finish r sto nto ld nd (Nat.le_succ _) rfl ?_ (.inr ⟨fresh, rfl, Nat.lt_succ_self _⟩) ?_ ?_ ?_ rfl, h.next, ?_, ?_⟩
    · intro m k
      exact upd_ne _ _ k
    · intro c k n
      show upd _ _ _ _ = _
      rw [upd_ne _ _ (by show c ≠ h.next; omega)]
      exact e0 c n
    · show upd _ _ _ _ = _
      rw [upd_ne _ _ (by show d ≠ h.next; omega)]
      exact ed
    · show Edge.dst (upd h0.edge h0.next ⟨tk, tt, none, some to⟩ h0.next) = _
      rw [upd_self]
    · show h.next ∈ (h0.newEdge (h0.blk to).ins ⟨tk, tt, none, some to⟩).1.I to
      rw [fresh]; simp
    · show Edge.kind (upd _ _ _ _) = _
      rw [show (h0.newEdge (h0.blk to).ins ⟨tk, tt, none, some to⟩).2 = h.next from rfl, upd_self]
      show Edge.kind (upd _ _ _ _) = _
      rw [show h0.next = h.next from rfl, upd_self]
  rw [Heap.linkOne, show (let e := h.edge d; h.setEdge d (if decide (e.dst = none) || false then { e with dst := some to } else e))
    = h0 from rfl]
  simp only [Heap.hangingIn]
  cases f : h0.findEdge ω 4 (h0.blk to).ins tk tt with
  | none => exact new
  | some i =>
    obtain ⟨mi, pi⟩ := pick_some fair f
    have mi' : i ∈ h.I to := mi
    have ni : i ≠ d := fun k => nd (k ▸ mi')
    by_cases k : (h0.edge i).src = none ∨ (h0.edge i).src = (h.edge d).src
    · simp only [e, h0] at k ⊢
      rw [if_pos k]
      refine ⟨lk_finish r sto nto ld nd (Nat.le_refl _) rfl (fun _ _ => rfl) (.inl ⟨rfl, mi'⟩) (fun c _ => e0 c) ed ?_ rfl, i, mi', ?_⟩
      · show (h0.edge i).dst = _
        rw [e0 i ni]; exact dI i mi'
      · show Edge.kind (upd _ _ _ _) = _
        rw [upd_self]
        simp only [Bool.and_eq_true, decide_eq_true_eq] at pi
        exact pi.1
    · simp only [e, h0] at k ⊢
      rw [if_neg k]
      exact new

end linkOne

/-- Identities not handed out yet name no block. -/
def Clean (h : Heap) : Prop := ∀ i, h.next ≤ i → ¬ h.IsB i

/-- `S` with the identities handed out between two heaps. -/
def Ext (S : Nat → Prop) (h h' : Heap) : Nat → Prop := fun i => S i ∨ (h.next ≤ i ∧ i < h'.next)

theorem Ext.trans {S : Nat → Prop} {h h' h'' : Heap} (a : h.next ≤ h'.next) (b : h'.next ≤ h''.next) :
    Ext (Ext S h h') h' h'' = Ext S h h'' := by
  funext i
  simp only [Ext, eq_iff_iff]
  constructor
  · rintro ((s | k) | k)
    · exact .inl s
    · exact .inr (by omega)
    · exact .inr (by omega)
  · rintro (s | k)
    · exact .inl (.inl s)
    · by_cases q : i < h'.next
      · exact .inl (.inr (by omega))
      · exact .inr (by omega)

theorem Ext.same {S : Nat → Prop} {h h' : Heap} (n : h'.next = h.next) : Ext S h h' = S := by
  funext i
  simp only [Ext, eq_iff_iff, n]
  constructor
  · rintro (s | k)
    · exact s
    · omega
  · exact .inl

theorem Lk.clean {h h' : Heap} {ds : List Nat} {to : Nat} {C : Nat → Prop} (l : Lk h h' ds to C) (c : Clean h) : Clean h' := by
  intro i k
  simp only [Heap.IsB, l.blk]
  exact c i (Nat.le_trans l.next k)

section lk

variable {h h' : Heap} {S : Nat → Prop} {ds : List Nat} {to : Nat} {C : Nat → Prop}

theorem Lk.ng (l : Lk h h' ds to C) (b : Nat) : h'.Ng b ↔ h.Ng b := by simp [Heap.Ng, l.blk]

theorem Lk.isB (l : Lk h h' ds to C) (b : Nat) : h'.IsB b ↔ h.IsB b := by simp [Heap.IsB, l.blk]

theorem Lk.O (l : Lk h h' ds to C) (r : Reg h S) (sto : S to) (nto : h.Ng to) {b : Nat} (s : S b) (k : h.IsB b) :
    h'.O b = h.O b := by
  simp only [Heap.O]
  rw [l.blk, l.emap _ (fun e => r.sep to b sto nto.isB s k e.symm)]

theorem Lk.Ine (l : Lk h h' ds to C) {b : Nat} (n : (h.blk b).ins ≠ (h.blk to).ins) : h'.I b = h.I b := by
  simp only [Heap.I]
  rw [l.blk, l.emap _ n]

theorem Lk.Ieq (l : Lk h h' ds to C) {b : Nat} (n : (h.blk b).ins = (h.blk to).ins) : h'.I b = h'.I to := by
  simp only [Heap.I]
  rw [l.blk, n]

theorem Ext.isB {i : Nat} (l : Lk h h' ds to C) (c : Clean h) (s : Ext S h h' i) (k : h'.IsB i) : S i ∧ h.IsB i := by
  have k' := (l.isB i).mp k
  rcases s with s | ⟨s, _⟩
  · exact ⟨s, k'⟩
  · exact absurd k' (c i s)

theorem Lk.reg (l : Lk h h' ds to C) (c : Clean h) (r : Reg h S) (sto : S to) (nto : h.Ng to)
    (hC : ∀ d, C d → (h.edge d).dst = none) (srcs : ∀ d ∈ ds, ∀ x, (h.edge d).src = some x → S x ∧ h.Ng x) :
    Reg h' (Ext S h h') := by
  have lt : ∀ i, S i → i < h'.next := fun i s => Nat.lt_of_lt_of_le (r.lt i s) l.next
  obtain ⟨g, eg, hg⟩ := l.grow
  have memI' : ∀ b, S b → h.IsB b → ∀ d ∈ h'.I b, (d ∈ h.I b) ∨ (d ∈ g ∧ h'.I b = h'.I to) := by
    intro b s k d m
    by_cases n : (h.blk b).ins = (h.blk to).ins
    · rw [l.Ieq n, eg] at m
      rcases List.mem_append.mp m with m | m
      · refine .inl ?_
        simp only [Heap.I] at m ⊢
        rw [n]; exact m
      · exact .inr ⟨m, l.Ieq n⟩
    · rw [l.Ine n] at m
      exact .inl m
  have ends : ∀ b, S b → h.IsB b → ∀ d ∈ h.O b, (d < h.next ∧ d ∉ h.I to) := fun b s k d m =>
    ⟨r.lt d (r.memO b s k d m), fun q => r.sepE to b sto nto.isB s k d q m⟩
  refine ⟨?_, ?_, ?_, ?_, ?_, ?_, ?_, ?_, ?_, ?_, ?_, ?_⟩
  · rintro i (s | s)
    · exact lt i s
    · exact s.2
  · intro b s k
    obtain ⟨s, k⟩ := Ext.isB l c s k
    rw [l.blk]; exact .inl (r.ins b s k)
  · intro b s k
    obtain ⟨s, k⟩ := Ext.isB l c s k
    rw [l.blk]; exact .inl (r.outs b s k)
  · intro b s k d m
    obtain ⟨s, k⟩ := Ext.isB l c s k
    rcases memI' b s k d m with m | ⟨m, _⟩
    · exact .inl (r.memI b s k d m)
    · exact .inr (hg d m)
  · intro b s k d m
    obtain ⟨s, k⟩ := Ext.isB l c s k
    rw [l.O r sto nto s k] at m
    exact .inl (r.memO b s k d m)
  · intro b s k d m x e
    obtain ⟨s, k⟩ := Ext.isB l c s k
    have fin : S x ∧ h.Ng x → Ext S h h' x ∧ h'.Ng x := fun ⟨p, q⟩ => ⟨.inl p, (l.ng x).mpr q⟩
    by_cases mt : d ∈ h'.I to
    · rcases l.srcI d mt x e with ⟨p, q⟩ | ⟨cc, p, q⟩
      · exact fin (r.srcI to sto nto.isB d p x q)
      · exact fin (srcs cc p x q)
    · rcases memI' b s k d m with m' | ⟨_, m'⟩
      · have nd : d ∉ h.I to := fun q => mt (l.I d q)
        rw [l.src d (r.lt d (r.memI b s k d m')) nd] at e
        exact fin (r.srcI b s k d m' x e)
      · rw [m'] at m; exact absurd m mt
  · intro b s k d m x e
    obtain ⟨s, k⟩ := Ext.isB l c s k
    rw [l.O r sto nto s k] at m
    obtain ⟨p, q⟩ := ends b s k d m
    rw [l.src d p q] at e
    obtain ⟨p, q⟩ := r.srcO b s k d m x e
    exact ⟨.inl p, (l.ng x).mpr q⟩
  · intro b s k d m x e
    obtain ⟨s, k⟩ := Ext.isB l c s k
    rw [l.O r sto nto s k] at m
    obtain ⟨p, q⟩ := ends b s k d m
    by_cases cd : C d
    · rw [l.hit d p cd] at e
      cases e
      exact ⟨.inl sto, (l.ng _).mpr nto⟩
    · rw [l.miss d p cd] at e
      obtain ⟨p, q⟩ := r.dstO b s k d m x e
      exact ⟨.inl p, (l.ng x).mpr q⟩
  · intro b s k d m
    obtain ⟨s, kb⟩ := Ext.isB l c s k.isB
    have k := (l.ng b).mp k
    by_cases n : (h.blk b).ins = (h.blk to).ins
    · have e := r.inj b to s k sto nto n
      subst e
      exact l.dstI d m
    · rw [l.Ine n] at m
      have dd := r.insDst b s k d m
      rw [l.miss d (r.lt d (r.memI b s kb d m)) (fun q => by rw [hC d q] at dd; cases dd)]
      exact dd
  · intro a b s k t u
    obtain ⟨s, _⟩ := Ext.isB l c s k.isB
    obtain ⟨t, _⟩ := Ext.isB l c t u.isB
    rw [l.blk]; exact r.inj a b s ((l.ng _).mp k) t ((l.ng _).mp u)
  · intro a b s k t u
    obtain ⟨s, k⟩ := Ext.isB l c s k
    obtain ⟨t, u⟩ := Ext.isB l c t u
    rw [l.blk]; exact r.sep a b s k t u
  · intro a b s k t u d m n
    obtain ⟨s, k⟩ := Ext.isB l c s k
    obtain ⟨t, u⟩ := Ext.isB l c t u
    rw [l.O r sto nto t u] at n
    rcases memI' a s k d m with m' | ⟨m', _⟩
    · exact r.sepE a b s k t u d m' n
    · have := (hg d m').1
      have := r.lt d (r.memO b t u d n)
      omega

/-- The edges `linkEdges` chooses. -/
def Sel (h : Heap) (fk : EK) (ft : Tag) (d : Nat) : Prop :=
  (h.edge d).kind = fk ∧ (ft.isNone = true ∨ (h.edge d).tag.meets ft = true)

theorem Tag.meets_like {a b ft : Tag} (k : a.Like b) (nc : ft.cut = false) : a.meets ft = b.meets ft := by
  simp only [Tag.Like, Tag.mk.injEq] at k
  simp [Tag.meets, nc, k]

end lk

section linkEdges

variable {ω : Order} (fair : ω.Fair) {fk tk : EK} {ft tt : Tag} {to : Nat}

include fair

theorem linkEdges_lk (nc : ft.cut = false) (ds : List Nat) : ∀ {h : Heap} {S : Nat → Prop}, Clean h → Reg h S → S to → h.Ng to →
    (∀ d ∈ ds, S d ∧ d ∉ h.I to) → (∀ d ∈ ds, ∀ x, (h.edge d).src = some x → S x ∧ h.Ng x) →
    Lk h (h.linkEdges ω fk ft tk tt to false ds) ds to (fun d => d ∈ ds ∧ Sel h fk ft d ∧ (h.edge d).dst = none) ∧
      ((∃ d ∈ ds, Sel h fk ft d) → ∃ i ∈ (h.linkEdges ω fk ft tk tt to false ds).I to,
        ((h.linkEdges ω fk ft tk tt to false ds).edge i).kind = tk) := by
  induction ds with
  | nil =>
    intro h S c r sto nto _ _
    refine ⟨?_, by simp⟩
    have := Lk.refl (h := h) (to := to) (r.insDst to sto nto) []
    simpa [Heap.linkEdges] using this
  | cons d ds ih =>
    intro h S c r sto nto sds srcs
    have step : ∃ C0 : Nat → Prop, Lk h (if decide ((h.edge d).kind = fk) && (ft.isNone || (h.edge d).tag.meets ft)
        then h.linkOne ω tk tt to false d else h) [d] to C0 ∧ (∀ x, C0 x ↔ (x = d ∧ Sel h fk ft d ∧ (h.edge d).dst = none)) ∧
        (Sel h fk ft d → ∃ i ∈ (if decide ((h.edge d).kind = fk) && (ft.isNone || (h.edge d).tag.meets ft)
          then h.linkOne ω tk tt to false d else h).I to, ((if decide ((h.edge d).kind = fk) &&
            (ft.isNone || (h.edge d).tag.meets ft) then h.linkOne ω tk tt to false d else h).edge i).kind = tk) := by
      have sd := sds d (by simp)
      have lk := linkOne_lk fair r sto nto tk tt (r.lt d sd.1) sd.2
      by_cases q : Sel h fk ft d
      · have q' : (decide ((h.edge d).kind = fk) && (ft.isNone || (h.edge d).tag.meets ft)) = true := by
          simpa [Sel] using q
        rw [if_pos q']
        exact ⟨_, lk.1, fun x => by simp [q], fun _ => lk.2⟩
      · have q' : ¬ (decide ((h.edge d).kind = fk) && (ft.isNone || (h.edge d).tag.meets ft)) = true := by
          simpa [Sel] using q
        rw [if_neg q']
        exact ⟨_, Lk.refl (r.insDst to sto nto) [d], fun x => by simp [q], fun k => absurd k q⟩
    obtain ⟨C0, l0, c0, k0⟩ := step
    have eq : h.linkEdges ω fk ft tk tt to false (d :: ds) =
      (if decide ((h.edge d).kind = fk) && (ft.isNone || (h.edge d).tag.meets ft)
        then h.linkOne ω tk tt to false d else h).linkEdges ω fk ft tk tt to false ds := rfl
    have srcd : ∀ c ∈ [d], ∀ x, (h.edge c).src = some x → S x ∧ h.Ng x := by
      intro c m; rw [List.mem_singleton.mp m]; exact srcs d (by simp)
    have r0 := l0.reg c r sto nto (fun x q => by rw [((c0 x).mp q).1]; exact ((c0 x).mp q).2.2) srcd
    rw [eq]
    generalize (if decide ((h.edge d).kind = fk) && (ft.isNone || (h.edge d).tag.meets ft)
        then h.linkOne ω tk tt to false d else h) = h1 at l0 r0 k0 ⊢
    have ltd : ∀ x ∈ ds, x < h.next := fun x m => r.lt x (sds x (by simp [m])).1
    have nI : ∀ x ∈ ds, x ∉ h.I to := fun x m => (sds x (by simp [m])).2
    obtain ⟨g, eg, hg⟩ := l0.grow
    have nI1 : ∀ x ∈ ds, x ∉ h1.I to := by
      intro x m q
      rw [eg] at q
      rcases List.mem_append.mp q with q | q
      · exact nI x m q
      · have := (hg x q).1; have := ltd x m; omega
    have sel : ∀ x ∈ ds, (Sel h1 fk ft x ↔ Sel h fk ft x) := by
      intro x m
      simp only [Sel, l0.kind x (ltd x m), Tag.meets_like (l0.like x (ltd x m) (nI x m)) nc]
    obtain ⟨l1, k1⟩ := ih (l0.clean c) r0 (.inl sto) ((l0.ng to).mpr nto)
      (fun x m => ⟨.inl (sds x (by simp [m])).1, nI1 x m⟩)
      (fun x m y e => by
        rw [l0.src x (ltd x m) (nI x m)] at e
        obtain ⟨p, q⟩ := srcs x (by simp [m]) y e
        exact ⟨.inl p, (l0.ng y).mpr q⟩)
    have l := Lk.trans ltd (fun e => r.sep to to sto nto.isB sto nto.isB e.symm) nI l0 l1
    refine ⟨?_, ?_⟩
    · have eC : (fun x => C0 x ∨ (x ∈ ds ∧ Sel h1 fk ft x ∧ (h1.edge x).dst = none)) =
          fun x => x ∈ d :: ds ∧ Sel h fk ft x ∧ (h.edge x).dst = none := by
        funext x
        simp only [eq_iff_iff, List.mem_cons]
        constructor
        · rintro (q | ⟨q, p, z⟩)
          · obtain ⟨rfl, p, z⟩ := (c0 x).mp q
            exact ⟨.inl rfl, p, z⟩
          · have n0 : ¬ C0 x := fun k => by rw [l0.hit x (ltd x q) k] at z; cases z
            rw [l0.miss x (ltd x q) n0] at z
            exact ⟨.inr q, (sel x q).mp p, z⟩
        · rintro ⟨q, p, z⟩
          by_cases k : C0 x
          · exact .inl k
          · rcases q with rfl | q
            · exact .inl ((c0 x).mpr ⟨rfl, p, z⟩)
            · exact .inr ⟨q, (sel x q).mpr p, by rw [l0.miss x (ltd x q) k]; exact z⟩
      rw [eC] at l
      exact l
    · rintro ⟨x, m, q⟩
      rcases List.mem_cons.mp m with e | m
      · obtain ⟨i, p, z⟩ := k0 (e ▸ q)
        exact ⟨i, l1.I i p, by rw [l1.kindI i p]; exact z⟩
      · exact k1 ⟨x, m, (sel x m).mpr q⟩

end linkEdges

/-- Some edges in `L` were marked as cut; nothing else changed. -/
structure Cutted (h h' : Heap) (L : Nat → Prop) : Prop where
  blk : h'.blk = h.blk
  emap : h'.emap = h.emap
  next : h'.next = h.next
  kind : ∀ d, (h'.edge d).kind = (h.edge d).kind
  src : ∀ d, (h'.edge d).src = (h.edge d).src
  dst : ∀ d, (h'.edge d).dst = (h.edge d).dst
  like : ∀ d, (h'.edge d).tag.Like (h.edge d).tag
  frame : ∀ d, ¬ L d → h'.edge d = h.edge d

theorem Cutted.refl (h : Heap) (L : Nat → Prop) : Cutted h h L :=
  ⟨rfl, rfl, rfl, fun _ => rfl, fun _ => rfl, fun _ => rfl, fun _ => rfl, fun _ _ => rfl⟩

theorem Cutted.trans {h h' h'' : Heap} {L : Nat → Prop} (a : Cutted h h' L) (b : Cutted h' h'' L) : Cutted h h'' L :=
  ⟨b.blk.trans a.blk, b.emap.trans a.emap, b.next.trans a.next, fun d => (b.kind d).trans (a.kind d),
    fun d => (b.src d).trans (a.src d), fun d => (b.dst d).trans (a.dst d), fun d => (b.like d).trans (a.like d),
    fun d n => (b.frame d n).trans (a.frame d n)⟩

theorem Cutted.mono {h h' : Heap} {L M : Nat → Prop} (a : Cutted h h' L) (k : ∀ d, L d → M d) : Cutted h h' M :=
  ⟨a.blk, a.emap, a.next, a.kind, a.src, a.dst, a.like, fun d n => a.frame d (fun q => n (k d q))⟩

theorem setCut (h : Heap) (d : Nat) : Cutted h (h.setEdge d { h.edge d with tag := (h.edge d).tag.withCut }) (fun c => c = d) := by
  have e : ∀ c, (h.setEdge d { h.edge d with tag := (h.edge d).tag.withCut }).edge c =
      if c = d then { h.edge d with tag := (h.edge d).tag.withCut } else h.edge c := fun _ => rfl
  refine ⟨rfl, rfl, rfl, ?_, ?_, ?_, ?_, ?_⟩ <;> intro c <;> rw [e]
  · split
    · next k => rw [k]
    · rfl
  · split
    · next k => rw [k]
    · rfl
  · split
    · next k => rw [k]
    · rfl
  · split
    · next k => rw [k]; exact Tag.like_cut _
    · exact .refl _
  · intro n
    rw [if_neg n]

theorem cutEdges_cutted (p : Edge → Bool) (l : List Nat) : ∀ h : Heap, Cutted h (h.cutEdges p l) (fun d => d ∈ l) := by
  induction l with
  | nil => intro h; exact .refl _ _
  | cons d l ih =>
    intro h
    rw [Heap.cutEdges]
    by_cases q : p (h.edge d) = true
    · rw [if_pos q]
      exact ((setCut h d).mono (by rintro c rfl; simp)).trans ((ih _).mono (fun c m => by simp [m]))
    · rw [if_neg q]
      exact (ih _).mono (fun c m => by simp [m])

theorem spreadCut_cutted (ω : Order) (h : Heap) (frm to : Nat) (q : Option Nat) :
    Cutted h (h.spreadCut ω frm to q) (fun d => d ∈ h.I to ∨ d ∈ h.O to) := by
  rw [Heap.spreadCut]
  split
  · have c := cutEdges_cutted (fun e => decide (e.src = q)) (h.emap (h.blk to).ins) h
    generalize h.cutEdges (fun e => decide (e.src = q)) (h.emap (h.blk to).ins) = h1 at c ⊢
    dsimp only
    have c' := c.mono (M := fun d => d ∈ h.I to ∨ d ∈ h.O to) (fun d m => .inl m)
    split
    · refine c'.trans ((cutEdges_cutted _ _ h1).mono ?_)
      intro d m
      rw [c.blk, c.emap] at m
      exact .inr m
    · exact c'
  · exact .refl _ _

theorem Lk.cutted {h h1 h2 : Heap} {ds : List Nat} {to : Nat} {C : Nat → Prop} (l : Lk h h1 ds to C)
    (sep : (h.blk to).outs ≠ (h.blk to).ins)
    (c : Cutted h1 h2 (fun d => d ∈ h1.I to ∨ d ∈ h1.O to)) : Lk h h2 ds to C := by
  have eI : h2.I to = h1.I to := by simp only [Heap.I, c.blk, c.emap]
  have eO : h1.O to = h.O to := by simp only [Heap.O, l.blk]; exact l.emap _ sep
  obtain ⟨g, eg, hg⟩ := l.grow
  refine ⟨by rw [c.next]; exact l.next, c.blk.trans l.blk, fun m k => by rw [c.emap]; exact l.emap m k,
    ⟨g, by rw [eI, eg], by rw [c.next]; exact hg⟩, ?_, ?_, ?_, ?_, ?_, ?_, ?_, ?_, ?_⟩
  · intro i m
    rw [eI] at m
    rw [c.dst]; exact l.dstI i m
  · intro i m
    rw [c.kind]; exact l.kindI i m
  · intro i m x e
    rw [eI] at m
    rw [c.src] at e
    exact l.srcI i m x e
  · intro d k
    rw [c.kind]; exact l.kind d k
  · intro d k n
    exact (c.like d).trans (l.like d k n)
  · intro d k n
    rw [c.src]; exact l.src d k n
  · intro d k q
    rw [c.dst]; exact l.hit d k q
  · intro d k q
    rw [c.dst]; exact l.miss d k q
  · intro d k n n' n''
    have nI : d ∉ h1.I to := by
      rw [eg]
      intro q
      rcases List.mem_append.mp q with q | q
      · exact n' q
      · have := (hg d q).1; omega
    rw [c.frame d (fun q => q.elim nI (by rw [eO]; exact n''))]
    exact l.frame d k n n' n''

/-- What a chosen edge looks like: leaves `X`, of the kind and tag asked for, hanging. -/
def Cho (h : Heap) (X : Nat) (fk : EK) (ft : Tag) (d : Nat) : Prop := d ∈ h.O X ∧ Sel h fk ft d ∧ (h.edge d).dst = none

/-- `B` is entered through block `e`. -/
structure In (h : Heap) (S : Nat → Prop) (B e : Nat) : Prop where
  sB : S B
  bB : h.IsB B
  se : S e
  ne : h.Ng e
  ins : (h.blk B).ins = (h.blk e).ins
  seq : ∃ i ∈ h.I e, (h.edge i).kind = .seq

section linkSep

variable {ω : Order} (fair : ω.Fair) {h : Heap} {S : Nat → Prop} (c : Clean h) (r : Reg h S) {X B e : Nat}
  (sX : S X) (bX : h.IsB X) (inB : In h S B e)

include fair r inB

theorem unwrapIn_eq (site : Nat) : h.unwrapIn ω site B = some e := by
  obtain ⟨i, mi, ki⟩ := inB.seq
  have mB : i ∈ h.emap (h.blk B).ins := by rw [inB.ins]; exact mi
  obtain ⟨j, ej⟩ := pick_isSome fair (site := site) (p := fun e => decide (e.kind = EK.seq)) mB (by simpa using ki)
  obtain ⟨mj, _⟩ := pick_some fair ej
  rw [Heap.unwrapIn, Heap.inSeq, ej]
  show (h.edge j).dst = _
  rw [inB.ins] at mj
  exact r.insDst e inB.se inB.ne j mj

include c sX bX

theorem linkSep_lk {fk tk : EK} {ft tt : Tag} (nc : ft.cut = false) (q : Option Nat) :
    ∃ h' ds, h.linkSep ω X fk ft tk tt B false q = some h' ∧ (∀ d, d ∈ ds ↔ d ∈ h.O X) ∧
      Lk h h' ds e (Cho h X fk ft) ∧
      ((∃ d ∈ h.O X, Sel h fk ft d) → ∃ i ∈ h'.I e, (h'.edge i).kind = tk) := by
  have mem : ∀ d, d ∈ h.range ω 8 (h.blk X).outs ↔ d ∈ h.O X := fun d => mem_range fair
  obtain ⟨l, k⟩ := linkEdges_lk (fk := fk) (tk := tk) (ft := ft) (tt := tt) fair nc (h.range ω 8 (h.blk X).outs) c r inB.se inB.ne
    (fun d m => ⟨r.memO X sX bX d ((mem d).mp m), fun n => r.sepE e X inB.se inB.ne.isB sX bX d n ((mem d).mp m)⟩)
    (fun d m => r.srcO X sX bX d ((mem d).mp m))
  have sep : (h.blk e).outs ≠ (h.blk e).ins := fun k => r.sep e e inB.se inB.ne.isB inB.se inB.ne.isB k.symm
  have cu := spreadCut_cutted ω (h.linkEdges ω fk ft tk tt e false (h.range ω 8 (h.blk X).outs)) X e q
  refine ⟨(h.linkEdges ω fk ft tk tt e false (h.range ω 8 (h.blk X).outs)).spreadCut ω X e q,
    h.range ω 8 (h.blk X).outs, ?_, mem, ?_, ?_⟩
  · rw [Heap.linkSep, unwrapIn_eq fair r inB]; rfl
  · have eC : (fun d => d ∈ h.range ω 8 (h.blk X).outs ∧ Sel h fk ft d ∧ (h.edge d).dst = none) = Cho h X fk ft := by
      funext d; simp only [Cho, mem]
    rw [← eC]
    exact l.cutted sep cu
  · rintro ⟨d, m, s⟩
    obtain ⟨i, p, z⟩ := k ⟨d, (mem d).mpr m, s⟩
    refine ⟨i, ?_, by rw [cu.kind]; exact z⟩
    simp only [Heap.I, cu.blk, cu.emap]
    exact p

end linkSep

end Mole.Cfg
