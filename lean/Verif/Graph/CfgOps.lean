import Verif.Graph.CfgPart

/-! Making blocks, groups and hanging edges. -/

namespace Mole.Cfg

/-- The identities of a new block. -/
def Two (b : Nat) : Nat → Prop := fun i => i = b ∨ i = b + 1

structure NewBlk (h h' : Heap) (b : Nat) (nodes : List Node) : Prop where
  next : h'.next = h.next + 2
  id : b = h.next
  clean : Clean h'
  agree : Agree h h' (fun i => i < h.next)
  part : Part h' (Two b) b b b (b + 1)
  tidy : Tidy h' b (b + 1)
  body : (h'.blk b).nodes = nodes
  ng : h'.Ng b
  pe : PE h' b (vis nodes) (b + 1)

theorem newBlk_spec {h : Heap} (c : Clean h) (k : BK) (nodes : List Node) (kk : k = .basic ∨ k = .start) :
    NewBlk h (h.newBlk k nodes).1 h.next nodes := by
  let h' := (h.newBlk k nodes).1
  let b := h.next
  show NewBlk h h' b nodes
  have eb : h'.blk b = ⟨k, nodes, b, b + 1⟩ := upd_self _ _ _
  have eb' : ∀ i, i ≠ b → h'.blk i = h.blk i := fun i n => upd_ne _ _ n
  have e1 : h'.edge (b + 1) = ⟨.seq, {}, some b, none⟩ := upd_self _ _ _
  have e0 : h'.edge b = ⟨.seq, {}, none, some b⟩ := by
    show upd _ _ _ _ = _
    rw [upd_ne _ _ (by omega)]; exact upd_self _ _ _
  have m1 : h'.emap (b + 1) = [b + 1] := upd_self _ _ _
  have m0 : h'.emap b = [b] := by
    show upd _ _ _ _ = _
    rw [upd_ne _ _ (by omega)]; exact upd_self _ _ _
  have I : h'.I b = [b] := by simp only [Heap.I, eb, m0]
  have O : h'.O b = [b + 1] := by simp only [Heap.O, eb, m1]
  have ng : h'.Ng b := by simp only [Heap.Ng, eb]; exact kk
  have nb : ¬ h'.IsB (b + 1) := by
    simp only [Heap.IsB, eb' (b + 1) (by omega)]
    exact c (b + 1) (by show h.next ≤ h.next + 1; omega)
  have one : ∀ x, Two b x → h'.IsB x → x = b := by
    rintro x (k | k) q
    · exact k
    · rw [k] at q; exact absurd q nb
  have reg : Reg h' (Two b) := by
    refine ⟨?_, ?_, ?_, ?_, ?_, ?_, ?_, ?_, ?_, ?_, ?_, ?_⟩
    · rintro i (k | k)
      · show i < h.next + 2; omega
      · show i < h.next + 2; omega
    · intro x s q; rw [one x s q, eb]; exact .inl rfl
    · intro x s q; rw [one x s q, eb]; exact .inr rfl
    · intro x s q d m; rw [one x s q, I] at m; exact .inl (List.mem_singleton.mp m)
    · intro x s q d m; rw [one x s q, O] at m; exact .inr (List.mem_singleton.mp m)
    · intro x s q d m y e
      rw [one x s q, I] at m
      rw [List.mem_singleton.mp m, e0] at e; cases e
    · intro x s q d m y e
      rw [one x s q, O] at m
      rw [List.mem_singleton.mp m, e1] at e; cases e
      exact ⟨.inl rfl, ng⟩
    · intro x s q d m y e
      rw [one x s q, O] at m
      rw [List.mem_singleton.mp m, e1] at e; cases e
    · intro x s q d m
      rw [one x s q.isB] at m ⊢
      rw [I] at m
      rw [List.mem_singleton.mp m, e0]
    · intro x y s q t r _
      rw [one x s q.isB, one y t r.isB]
    · intro x y s q t r
      rw [one x s q, one y t r, eb]
      show b ≠ b + 1
      omega
    · intro x y s q t r d m n
      rw [one x s q, I] at m
      rw [one y t r, O] at n
      have := List.mem_singleton.mp m
      have := List.mem_singleton.mp n
      omega
  refine ⟨rfl, rfl, ?_, ⟨?_, ?_, ?_⟩, ⟨reg, ?_, ?_, ?_⟩, ?_, by rw [eb], ng, ?_⟩
  · intro i q
    have q : h.next + 2 ≤ i := q
    simp only [Heap.IsB, eb' i (by omega)]
    exact c i (by omega)
  · intro i q; exact eb' i (by omega)
  · intro i q
    show upd _ _ _ _ = _
    rw [upd_ne _ _ (by omega), upd_ne _ _ (by omega)]
  · intro i q
    show upd _ _ _ _ = _
    rw [upd_ne _ _ (by omega), upd_ne _ _ (by omega)]
  · exact ⟨.inl rfl, ng.isB, .inl rfl, ng, rfl, b, by rw [I]; simp, by rw [e0]⟩
  · refine ⟨⟨b, I, by rw [e0]⟩, ?_, ?_⟩
    · intro x s q d m
      rw [one x s q, O] at m
      rw [List.mem_singleton.mp m, e1]; simp
    · intro d m
      rw [O] at m
      rw [List.mem_singleton.mp m, e1]
  · exact ⟨.inl rfl, ng.isB, by rw [O]; simp, by rw [e1], by rw [e1], ⟨b, by rw [e1], by rw [O]; simp⟩,
      fun d m _ => by rw [O] at m; exact List.mem_singleton.mp m⟩
  · exact ⟨O, by rw [e1], by rw [e1]⟩
  · refine ⟨b, ?_, by rw [e1], by rw [O]; simp⟩
    have : Walk h' b (vis (h'.blk b).nodes) b := .one
    rwa [eb] at this

/-- A group `vn` was made, or an old group was given other outgoing edges. -/
structure Gp (h h' : Heap) (S : Nat → Prop) (A vn : Nat) (L : Nat → Prop) : Prop where
  place : (vn = A ∧ (h.blk A).kind = .group) ∨ vn = h.next
  next : h'.next = h.next + 1
  kind : (h'.blk vn).kind = .group
  ins : (h'.blk vn).ins = (h.blk A).ins
  outs : (h'.blk vn).outs = h.next ∨ ∃ b, S b ∧ h.IsB b ∧ (h'.blk vn).outs = (h.blk b).outs
  blk : ∀ b, b ≠ vn → h'.blk b = h.blk b
  edge : h'.edge = h.edge
  emap : ∀ m, m ≠ h.next → h'.emap m = h.emap m
  mem : ∀ d, d ∈ h'.O vn ↔ L d

section gp

variable {h h' : Heap} {S : Nat → Prop} {A vn : Nat} {L : Nat → Prop} (g : Gp h h' S A vn L) (c : Clean h) (r : Reg h S)
  (sA : S A) (bA : h.IsB A) (hL : ∀ d, L d → ∃ b, S b ∧ h.IsB b ∧ d ∈ h.O b)

include g c

theorem Gp.notNg : ¬ h.Ng vn := by
  rcases g.place with ⟨e, k⟩ | k
  · rw [e]; simp [Heap.Ng, k]
  · intro q; exact c vn (by omega) q.isB

theorem Gp.ng (b : Nat) : h'.Ng b ↔ h.Ng b := by
  by_cases k : b = vn
  · constructor
    · intro q; rw [k] at q; simp [Heap.Ng, g.kind] at q
    · intro q; rw [k] at q; exact absurd q (g.notNg c)
  · simp only [Heap.Ng, g.blk b k]

include r

theorem Gp.O {b : Nat} (sb : S b) (bb : h.IsB b) (k : b ≠ vn) : h'.O b = h.O b := by
  simp only [Heap.O]
  rw [g.blk b k, g.emap _ (Nat.ne_of_lt (r.lt _ (r.outs b sb bb)))]

theorem Gp.I {b : Nat} (sb : S b) (bb : h.IsB b) (k : b ≠ vn) : h'.I b = h.I b := by
  simp only [Heap.I]
  rw [g.blk b k, g.emap _ (Nat.ne_of_lt (r.lt _ (r.ins b sb bb)))]

include sA in
theorem Gp.clean : Clean h' := by
  intro i q
  have q : h.next + 1 ≤ i := g.next ▸ q
  have : i ≠ vn := by
    rcases g.place with ⟨e, _⟩ | k
    · have := r.lt A sA; omega
    · omega
  simp only [Heap.IsB, g.blk i this]
  exact c i (by omega)

include sA in
theorem Gp.frame {T : Nat → Prop} (lt : ∀ i, T i → i < h.next) (dS : ∀ i, T i → ¬ S i) : Agree h h' T := by
  refine ⟨?_, fun i _ => by rw [g.edge], ?_⟩
  · intro i t
    refine g.blk i ?_
    rcases g.place with ⟨k, _⟩ | k
    · intro e; exact dS i t (by rw [e, k]; exact sA)
    · have := lt i t; omega
  · intro i t
    exact g.emap i (Nat.ne_of_lt (lt i t))

theorem Gp.old {b : Nat} (s : Ext S h h' b) (q : h'.IsB b) (k : b ≠ vn) : S b ∧ h.IsB b := by
  have q' : h.IsB b := by simpa only [Heap.IsB, g.blk b k] using q
  rcases s with s | ⟨s, _⟩
  · exact ⟨s, q'⟩
  · exact absurd q' (c b s)

include sA bA hL

theorem Gp.reg : Reg h' (Ext S h h') := by
  have en : Ext S h h' h.next := .inr ⟨Nat.le_refl _, by rw [g.next]; omega⟩
  have Iv : h'.I vn = h.I A := by
    simp only [Heap.I]
    rw [g.ins, g.emap _ (Nat.ne_of_lt (r.lt _ (r.ins A sA bA)))]
  have back : ∀ b, Ext S h h' b → h'.IsB b → ∀ d ∈ h'.O b, ∃ b', S b' ∧ h.IsB b' ∧ d ∈ h.O b' := by
    intro b s q d m
    by_cases k : b = vn
    · rw [k] at m; exact hL d ((g.mem d).mp m)
    · obtain ⟨s, q⟩ := g.old c r s q k
      rw [g.O c r s q k] at m
      exact ⟨b, s, q, m⟩
  have backI : ∀ b, Ext S h h' b → h'.IsB b → ∃ b', S b' ∧ h.IsB b' ∧ h'.I b = h.I b' ∧ (h'.blk b).ins = (h.blk b').ins := by
    intro b s q
    by_cases k : b = vn
    · exact ⟨A, sA, bA, by rw [k]; exact Iv, by rw [k]; exact g.ins⟩
    · obtain ⟨s, q⟩ := g.old c r s q k
      exact ⟨b, s, q, g.I c r s q k, by rw [g.blk b k]⟩
  have nv : ∀ b, h'.Ng b → b ≠ vn := by
    intro b q k
    rw [k] at q
    simp [Heap.Ng, g.kind] at q
  refine ⟨?_, ?_, ?_, ?_, ?_, ?_, ?_, ?_, ?_, ?_, ?_, ?_⟩
  · rintro i (s | s)
    · have := r.lt i s; have := g.next; omega
    · exact s.2
  · intro b s q
    obtain ⟨b', s', q', _, e⟩ := backI b s q
    rw [e]; exact .inl (r.ins b' s' q')
  · intro b s q
    by_cases k : b = vn
    · rw [k]
      rcases g.outs with o | ⟨b', s', q', o⟩
      · rw [o]; exact en
      · rw [o]; exact .inl (r.outs b' s' q')
    · obtain ⟨s, q⟩ := g.old c r s q k
      rw [g.blk b k]; exact .inl (r.outs b s q)
  · intro b s q d m
    obtain ⟨b', s', q', e, _⟩ := backI b s q
    rw [e] at m; exact .inl (r.memI b' s' q' d m)
  · intro b s q d m
    obtain ⟨b', s', q', m⟩ := back b s q d m
    exact .inl (r.memO b' s' q' d m)
  · intro b s q d m x e
    obtain ⟨b', s', q', eI, _⟩ := backI b s q
    rw [eI] at m; rw [g.edge] at e
    obtain ⟨p, z⟩ := r.srcI b' s' q' d m x e
    exact ⟨.inl p, (g.ng c x).mpr z⟩
  · intro b s q d m x e
    obtain ⟨b', s', q', m⟩ := back b s q d m
    rw [g.edge] at e
    obtain ⟨p, z⟩ := r.srcO b' s' q' d m x e
    exact ⟨.inl p, (g.ng c x).mpr z⟩
  · intro b s q d m x e
    obtain ⟨b', s', q', m⟩ := back b s q d m
    rw [g.edge] at e
    obtain ⟨p, z⟩ := r.dstO b' s' q' d m x e
    exact ⟨.inl p, (g.ng c x).mpr z⟩
  · intro b s q d m
    have k := nv b q
    obtain ⟨s, q'⟩ := g.old c r s q.isB k
    rw [g.I c r s q' k] at m; rw [g.edge]
    exact r.insDst b s ((g.ng c b).mp q) d m
  · intro a b s q t u e
    have k := nv a q
    have k' := nv b u
    obtain ⟨s, _⟩ := g.old c r s q.isB k
    obtain ⟨t, _⟩ := g.old c r t u.isB k'
    rw [g.blk a k, g.blk b k'] at e
    exact r.inj a b s ((g.ng c a).mp q) t ((g.ng c b).mp u) e
  · intro a b s q t u
    obtain ⟨a', s', q', _, e⟩ := backI a s q
    rw [e]
    by_cases k : b = vn
    · rw [k]
      rcases g.outs with o | ⟨b', t', u', o⟩
      · rw [o]; exact Nat.ne_of_lt (r.lt _ (r.ins a' s' q'))
      · rw [o]; exact r.sep a' b' s' q' t' u'
    · obtain ⟨t, u⟩ := g.old c r t u k
      rw [g.blk b k]; exact r.sep a' b s' q' t u
  · intro a b s q t u d m n
    obtain ⟨a', s', q', e, _⟩ := backI a s q
    rw [e] at m
    obtain ⟨b', t', u', n⟩ := back b t u d n
    exact r.sepE a' b' s' q' t' u' d m n

omit sA bA hL

theorem Gp.walk {a x : Nat} {ns : List Nat} (sa : S a) (na : h.Ng a) (w : Walk h a ns x) : Walk h' a ns x ∧ h.Ng x := by
  have nv : ∀ b, h.Ng b → b ≠ vn := fun b q k => g.notNg c (k ▸ q)
  induction w with
  | one => rw [← g.blk a (nv a na)]; exact ⟨.one, na⟩
  | @step ns b y d w m e ih =>
    obtain ⟨p, q⟩ := w.inside r sa na.isB
    obtain ⟨_, ny⟩ := r.dstO b p q d m y e
    rw [← g.blk y (nv y ny)]
    exact ⟨ih.1.step (by rw [g.O c r p q (nv b ih.2)]; exact m) (by rw [g.edge]; exact e), ny⟩

theorem Gp.pe {a d : Nat} {ns : List Nat} (sa : S a) (na : h.Ng a) (w : PE h a ns d) : PE h' a ns d := by
  obtain ⟨x, w, e, m⟩ := w
  obtain ⟨w', nx⟩ := g.walk c r sa na w
  obtain ⟨sx, bx⟩ := w.inside r sa na.isB
  exact ⟨x, w', by rw [g.edge]; exact e, by rw [g.O c r sx bx (fun k => g.notNg c (k ▸ nx))]; exact m⟩

theorem Gp.pre {a : Nat} {ns : List Nat} (sa : S a) (na : h.Ng a) (w : Pre h a ns) : Pre h' a ns := by
  obtain ⟨x, v, w, p⟩ := w
  exact ⟨x, v, (g.walk c r sa na w).1, p⟩

theorem Gp.isBvn : h'.IsB vn := by simp [Heap.IsB, g.kind]

theorem Gp.inn {B e : Nat} (i : In h S B e) : In h' (Ext S h h') B e := by
  obtain ⟨d, m, k⟩ := i.seq
  have ne : e ≠ vn := fun q => g.notNg c (q ▸ i.ne)
  by_cases q : B = vn
  · have BA : B = A := by
      rcases g.place with ⟨k, _⟩ | k
      · rw [q, k]
      · have := r.lt B i.sB; omega
    refine ⟨.inl i.sB, by rw [q]; exact g.isBvn c r, .inl i.se, (g.ng c e).mpr i.ne, ?_, d, ?_, by rw [g.edge]; exact k⟩
    · rw [g.blk e ne, ← i.ins, q, g.ins, ← BA, q]
    · rw [g.I c r i.se i.ne.isB ne]; exact m
  · refine ⟨.inl i.sB, ?_, .inl i.se, (g.ng c e).mpr i.ne, by rw [g.blk B q, g.blk e ne]; exact i.ins, d, ?_, by rw [g.edge]; exact k⟩
    · simpa only [Heap.IsB, g.blk B q] using i.bB
    · rw [g.I c r i.se i.ne.isB ne]; exact m

include sA in
theorem Gp.ext : Ext S h h' vn := by
  rcases g.place with ⟨k, _⟩ | k
  · exact .inl (k ▸ sA)
  · exact .inr ⟨by omega, by rw [g.next]; omega⟩

include sA in
theorem Gp.innVn {e : Nat} (i : In h S A e) : In h' (Ext S h h') vn e := by
  obtain ⟨d, m, k⟩ := i.seq
  have ne : e ≠ vn := fun q => g.notNg c (q ▸ i.ne)
  exact ⟨g.ext c r sA, g.isBvn c r, .inl i.se, (g.ng c e).mpr i.ne, by rw [g.ins, g.blk e ne]; exact i.ins, d,
    by rw [g.I c r i.se i.ne.isB ne]; exact m, by rw [g.edge]; exact k⟩

include hL in
theorem Gp.fresh {e : Nat} (se : S e) (ne : h.Ng e) (f : Fresh h S e) : Fresh h' (Ext S h h') e := by
  have nv : e ≠ vn := fun q => g.notNg c (q ▸ ne)
  obtain ⟨i, ei, ki⟩ := f.one
  refine ⟨⟨i, by rw [g.I c r se ne.isB nv]; exact ei, by rw [g.edge]; exact ki⟩, ?_, ?_⟩
  · intro b sb bb d md
    rw [g.edge]
    by_cases k : b = vn
    · rw [k] at md
      obtain ⟨b', s', q', m'⟩ := hL d ((g.mem d).mp md)
      exact f.lead b' s' q' d m'
    · obtain ⟨sb, bb⟩ := g.old c r sb bb k
      rw [g.O c r sb bb k] at md
      exact f.lead b sb bb d md
  · intro d md
    rw [g.O c r se ne.isB nv] at md
    rw [g.edge]; exact f.own d md

theorem Gp.out {X s : Nat} (k : X ≠ vn) (o : Out h S X s) : Out h' (Ext S h h') X s := by
  obtain ⟨x, ex, mx⟩ := o.live
  obtain ⟨sx, nx⟩ := r.srcO X o.sX o.bX s o.mem x ex
  have nv : x ≠ vn := fun q => g.notNg c (q ▸ nx)
  refine ⟨.inl o.sX, by simpa only [Heap.IsB, g.blk X k] using o.bX, by rw [g.O c r o.sX o.bX k]; exact o.mem, by rw [g.edge]; exact o.kind,
    by rw [g.edge]; exact o.hang, ⟨x, by rw [g.edge]; exact ex, by rw [g.O c r sx nx.isB nv]; exact mx⟩, ?_⟩
  intro d md kd
  rw [g.O c r o.sX o.bX k] at md
  rw [g.edge] at kd
  exact o.uniq d md kd

include sA in
theorem Gp.outVn {X s : Nat} (o : Out h S X s) (ls : L s) (u : ∀ d, L d → (h.edge d).kind = .seq → d = s) :
    Out h' (Ext S h h') vn s := by
  obtain ⟨x, ex, mx⟩ := o.live
  obtain ⟨sx, nx⟩ := r.srcO X o.sX o.bX s o.mem x ex
  have nv : x ≠ vn := fun q => g.notNg c (q ▸ nx)
  refine ⟨g.ext c r sA, g.isBvn c r, (g.mem s).mpr ls, by rw [g.edge]; exact o.kind,
    by rw [g.edge]; exact o.hang, ⟨x, by rw [g.edge]; exact ex, by rw [g.O c r sx nx.isB nv]; exact mx⟩, ?_⟩
  intro d md kd
  rw [g.edge] at kd
  exact u d ((g.mem d).mp md) kd

theorem Gp.tidy {x s : Nat} (sx : S x) (nx : h.Ng x) (t : Tidy h x s) : Tidy h' x s := by
  have nv : x ≠ vn := fun q => g.notNg c (q ▸ nx)
  exact ⟨by rw [g.O c r sx nx.isB nv]; exact t.only, by rw [g.edge]; exact t.src, by rw [g.edge]; exact t.hang⟩

theorem Gp.jx {a X : Nat} {ns : List Nat} {b : Bool} (sa : S a) (na : h.Ng a)
    (sub : ∀ d ∈ h.O X, (h.edge d).kind = .jmp → (h.edge d).dst = none → (h.edge d).tag.on b = true → L d) (j : Jx h a X ns b) :
    Jx h' a vn ns b := by
  obtain ⟨d, md, k1, k2, k3, k4⟩ := j
  exact ⟨d, (g.mem d).mpr (sub d md k1 k2 k3), by rw [g.edge]; exact k1, by rw [g.edge]; exact k2, by rw [g.edge]; exact k3, g.pe c r sa na k4⟩

theorem Gp.jxOther {a X : Nat} {ns : List Nat} {b : Bool} (sa : S a) (na : h.Ng a) (sX : S X) (bX : h.IsB X) (k : X ≠ vn) (j : Jx h a X ns b) :
    Jx h' a X ns b := by
  obtain ⟨d, md, k1, k2, k3, k4⟩ := j
  exact ⟨d, by rw [g.O c r sX bX k]; exact md, by rw [g.edge]; exact k1, by rw [g.edge]; exact k2, by rw [g.edge]; exact k3, g.pe c r sa na k4⟩

theorem Gp.ends {a X s : Nat} {ns : List Nat} {res : Res} (sa : S a) (na : h.Ng a)
    (sub : ∀ d ∈ h.O X, (h.edge d).kind = .jmp → (h.edge d).dst = none → L d) (k : Ends h a X s ns res) :
    Ends h' a vn s ns res := by
  cases res with
  | stop => exact g.pre c r sa na k
  | val b =>
    rcases k with k | k
    · exact .inl (g.pe c r sa na k)
    · exact .inr (g.jx c r sa na (fun d md k1 k2 _ => sub d md k1 k2) k)

end gp

theorem mem_addKey {l : List Nat} {c d : Nat} : c ∈ Heap.addKey l d ↔ c ∈ l ∨ c = d := by
  simp only [Heap.addKey]
  split
  · next k =>
    constructor
    · exact .inl
    · rintro (q | q)
      · exact q
      · rw [q]; exact k
  · simp

theorem mem_addKeys {ds l : List Nat} {c : Nat} : c ∈ ds.foldl Heap.addKey l ↔ c ∈ l ∨ c ∈ ds := by
  induction ds generalizing l with
  | nil => simp
  | cons d ds ih => simp only [List.foldl_cons, ih, mem_addKey, List.mem_cons, or_assoc]

/-- Adding edges to a group just made. -/
theorem Gp.add {h h' : Heap} {S : Nat → Prop} {A vn : Nat} {L : Nat → Prop} (g : Gp h h' S A vn L)
    (o : (h'.blk vn).outs = h.next) (ds : List Nat) : Gp h (h'.addOutlets vn ds) S A vn (fun d => L d ∨ d ∈ ds) := by
  refine ⟨g.place, g.next, g.kind, g.ins, g.outs, g.blk, g.edge, ?_, ?_⟩
  · intro m k
    show upd _ _ _ _ = _
    rw [upd_ne _ _ (by rw [o]; exact k)]; exact g.emap m k
  · intro d
    show d ∈ upd h'.emap (h'.blk vn).outs _ (h'.blk vn).outs ↔ _
    rw [upd_self, mem_addKeys, ← g.mem d]

theorem newGroup_gp {h : Heap} {S : Nat → Prop} {A : Nat} :
    Gp h (h.newGroup (h.blk A).ins).1 S A h.next (fun _ => False) ∧ ((h.newGroup (h.blk A).ins).1.blk h.next).outs = h.next := by
  have e : (h.newGroup (h.blk A).ins).1.blk h.next = ⟨.group, [], (h.blk A).ins, h.next⟩ := upd_self _ _ _
  refine ⟨⟨.inr rfl, rfl, by rw [e], by rw [e], .inl (by rw [e]), fun b k => upd_ne _ _ k, rfl, fun m k => upd_ne _ _ k, ?_⟩, by rw [e]⟩
  intro d
  simp only [Heap.O, e]
  show d ∈ upd h.emap h.next [] h.next ↔ _
  rw [upd_self]; simp

theorem mem_xOut {h : Heap} {b d : Nat} : d ∈ h.xOut b ↔ d ∈ h.O b ∧ (h.edge d).dst = none := by
  simp [Heap.xOut]

theorem mem_xJmp {h : Heap} {b d : Nat} : d ∈ h.xJmp b ↔ d ∈ h.O b ∧ (h.edge d).kind ≠ .seq ∧ (h.edge d).dst = none := by
  simp [Heap.xJmp]

/-- `grpBlock`. -/
theorem grp_gp {h : Heap} {S : Nat → Prop} (c : Clean h) (r : Reg h S) {A X : Nat} (sA : S A) (bA : h.IsB A) (sX : S X) (bX : h.IsB X) (ne : A ≠ X) :
    Gp h (h.grp A X).1 S A (h.grp A X).2 (fun d => d ∈ h.xOut X ∨ d ∈ h.xJmp A) := by
  have key : ∀ (h1 : Heap) (vn : Nat), Gp h h1 S A vn (fun _ => False) → (h1.blk vn).outs = h.next → vn ≠ X →
      Gp h ((h1.addOutlets vn (h1.xOut X)).addOutlets vn (h.xJmp A)) S A vn (fun d => d ∈ h.xOut X ∨ d ∈ h.xJmp A) := by
    intro h1 vn g o nX
    have := (g.add o (h1.xOut X)).add o (h.xJmp A)
    have eq : h1.xOut X = h.xOut X := by
      simp only [Heap.xOut]
      have := g.O c r sX bX (Ne.symm nX)
      simp only [Heap.O] at this
      rw [this, g.edge]
    have eL : (fun d => (False ∨ d ∈ h1.xOut X) ∨ d ∈ h.xJmp A) = fun d => d ∈ h.xOut X ∨ d ∈ h.xJmp A := by
      funext d; simp [eq]
    rw [eL] at this
    exact this
  rw [Heap.grp]
  by_cases k : (h.blk A).kind = .group
  · rw [if_pos k]
    refine key _ A ?_ ?_ ne
    · have eb : ∀ b, upd h.blk A { h.blk A with outs := h.next } b = if b = A then { h.blk A with outs := h.next } else h.blk b := fun _ => rfl
      refine ⟨.inl ⟨rfl, k⟩, rfl, ?_, ?_, .inl ?_, fun b q => upd_ne _ _ q, rfl, fun m q => upd_ne _ _ q, ?_⟩
      · show Block.kind (upd _ _ _ _) = _
        rw [upd_self]; exact k
      · show Block.ins (upd _ _ _ _) = _
        rw [upd_self]
      · show Block.outs (upd _ _ _ _) = _
        rw [upd_self]
      · intro d
        simp only [Heap.O]
        show d ∈ upd h.emap h.next [] (Block.outs (upd h.blk A { h.blk A with outs := h.next } A)) ↔ _
        rw [upd_self]
        show d ∈ upd h.emap h.next [] h.next ↔ _
        rw [upd_self]; simp
    · show Block.outs (upd _ _ _ _) = _
      rw [upd_self]
  · rw [if_neg k]
    obtain ⟨g, o⟩ := newGroup_gp (h := h) (S := S) (A := A)
    exact key _ _ g o (Nat.ne_of_gt (r.lt X sX))

/-- The fragment `grpBlock` makes. -/
theorem grp_part {h : Heap} {S : Nat → Prop} (c : Clean h) {A e X s : Nat} (ne : A ≠ X) (p : Part h S A e X s) :
    Gp h (h.grp A X).1 S A (h.grp A X).2 (fun d => d ∈ h.xOut X ∨ d ∈ h.xJmp A) ∧
    Part (h.grp A X).1 (Ext S h (h.grp A X).1) (h.grp A X).2 e (h.grp A X).2 s ∧
    ∀ ns res, Ends h e X s ns res → Ends (h.grp A X).1 e (h.grp A X).2 s ns res := by
  have g := grp_gp c p.reg p.inA.sB p.inA.bB p.out.sX p.out.bX ne
  have hL : ∀ d, (d ∈ h.xOut X ∨ d ∈ h.xJmp A) → ∃ b, S b ∧ h.IsB b ∧ d ∈ h.O b := by
    rintro d (k | k)
    · exact ⟨X, p.out.sX, p.out.bX, (mem_xOut.mp k).1⟩
    · exact ⟨A, p.inA.sB, p.inA.bB, (mem_xJmp.mp k).1⟩
  refine ⟨g, ⟨g.reg c p.reg p.inA.sB p.inA.bB hL, g.innVn c p.reg p.inA.sB p.inA, g.fresh c p.reg hL p.inA.se p.inA.ne p.fr,
    g.outVn c p.reg p.inA.sB p.out (.inl (mem_xOut.mpr ⟨p.out.mem, p.out.hang⟩)) ?_⟩, ?_⟩
  · rintro d (k | k) q
    · exact p.out.uniq d (mem_xOut.mp k).1 q
    · exact absurd q (mem_xJmp.mp k).2.1
  · intro ns res k
    exact g.ends c p.reg p.inA.se p.inA.ne (fun d md _ q => .inl (mem_xOut.mpr ⟨md, q⟩)) k

/-- A hanging edge `d` leaving `x` was added; it is in the map of `B`, too. -/
structure Jo (h h' : Heap) (B x d : Nat) (t : Tag) : Prop where
  next : h'.next = h.next + 1
  new : d = h.next
  blk : h'.blk = h.blk
  edge : ∀ c, c ≠ d → h'.edge c = h.edge c
  kind : (h'.edge d).kind = .jmp
  tag : (h'.edge d).tag.Like t
  src : (h'.edge d).src = some x
  dst : (h'.edge d).dst = none
  emap : ∀ m, m ≠ (h.blk x).outs → m ≠ (h.blk B).outs → h'.emap m = h.emap m
  mem : ∀ m c, c ∈ h'.emap m ↔ c ∈ h.emap m ∨ (c = d ∧ (m = (h.blk x).outs ∨ m = (h.blk B).outs))

theorem newJmpOut_jo {ω : Order} (fair : ω.Fair) {h : Heap} {S : Nat → Prop} {B s x : Nat} (o : Out h S B s) (ex : (h.edge s).src = some x)
    (t : Tag) : ∃ h', h.newJmpOut ω B t = some h' ∧ Jo h h' B x h.next t := by
  obtain ⟨j, ej⟩ := pick_isSome fair (site := 9) (p := fun e => decide (e.kind = EK.seq)) (m := (h.blk B).outs) o.mem (by simpa using o.kind)
  obtain ⟨mj, kj⟩ := pick_some fair ej
  have js := o.uniq j mj (by simpa using kj)
  rw [js] at ej
  rw [Heap.newJmpOut, Heap.outSeq, ej, Option.bind_some, ex]
  let t' := if h.isInCut x then t.withCut else t
  have lt' : t'.Like t := by
    simp only [t']
    split
    · exact Tag.like_cut _
    · exact .refl _
  let p := h.newEdge (h.blk x).outs ⟨.jmp, t', some x, none⟩
  have pe : p.1.edge h.next = ⟨.jmp, t', some x, none⟩ := upd_self _ _ _
  have pm : ∀ m c, c ∈ p.1.emap m ↔ c ∈ h.emap m ∨ (c = h.next ∧ m = (h.blk x).outs) := by
    intro m c
    show c ∈ upd h.emap (h.blk x).outs (h.emap (h.blk x).outs ++ [h.next]) m ↔ _
    by_cases k : m = (h.blk x).outs
    · rw [k, upd_self]; simp
    · rw [upd_ne _ _ k]; simp [k]
  refine ⟨if x ≠ B then p.1.setMap (p.1.blk B).outs (Heap.addKey (p.1.emap (p.1.blk B).outs) p.2) else p.1, rfl, ?_⟩
  by_cases k : x ≠ B
  · rw [if_pos k]
    refine ⟨rfl, rfl, rfl, fun c n => upd_ne _ _ n, by show (p.1.edge h.next).kind = _; rw [pe], by show (p.1.edge h.next).tag.Like t; rw [pe]; exact lt',
      by show (p.1.edge h.next).src = _; rw [pe], by show (p.1.edge h.next).dst = _; rw [pe], ?_, ?_⟩
    · intro m n1 n2
      show upd p.1.emap (h.blk B).outs _ m = _
      rw [upd_ne _ _ n2]
      exact upd_ne _ _ n1
    · intro m c
      show c ∈ upd p.1.emap (h.blk B).outs (Heap.addKey (p.1.emap (h.blk B).outs) h.next) m ↔ _
      by_cases q : m = (h.blk B).outs
      · rw [q, upd_self, mem_addKey, pm]
        constructor
        · rintro ((z | ⟨z, w⟩) | z)
          · exact .inl z
          · exact .inr ⟨z, .inl w⟩
          · exact .inr ⟨z, .inr rfl⟩
        · rintro (z | ⟨z, _⟩)
          · exact .inl (.inl z)
          · exact .inr z
      · rw [upd_ne _ _ q, pm]; simp [q]
  · rw [if_neg k]
    have k : x = B := Classical.byContradiction k
    refine ⟨rfl, rfl, rfl, fun c n => upd_ne _ _ n, by rw [pe], by rw [pe]; exact lt', by rw [pe], by rw [pe], ?_, ?_⟩
    · intro m n1 _
      exact upd_ne _ _ n1
    · intro m c
      rw [pm, k]; simp

section jo

variable {h h' : Heap} {S : Nat → Prop} {B x d s : Nat} {t : Tag} (j : Jo h h' B x d t) (c : Clean h) (r : Reg h S)
  (o : Out h S B s) (ex : (h.edge s).src = some x)

include j

theorem Jo.ng (b : Nat) : h'.Ng b ↔ h.Ng b := by simp only [Heap.Ng, j.blk]

theorem Jo.isB (b : Nat) : h'.IsB b ↔ h.IsB b := by simp only [Heap.IsB, j.blk]

theorem Jo.O {b e : Nat} : e ∈ h'.O b ↔ e ∈ h.O b ∨ (e = d ∧ ((h.blk b).outs = (h.blk x).outs ∨ (h.blk b).outs = (h.blk B).outs)) := by
  simp only [Heap.O, j.blk]; exact j.mem _ _

theorem Jo.clean (c : Clean h) : Clean h' := by
  intro i q
  rw [j.isB]
  exact c i (by rw [j.next] at q; omega)

theorem Jo.old {b : Nat} (c : Clean h) (sb : Ext S h h' b) (k : h'.IsB b) : S b ∧ h.IsB b := by
  have k := (j.isB b).mp k
  rcases sb with sb | ⟨sb, _⟩
  · exact ⟨sb, k⟩
  · exact absurd k (c b sb)

include r o ex

theorem Jo.frame {T : Nat → Prop} (lt : ∀ i, T i → i < h.next) (dS : ∀ i, T i → ¬ S i) : Agree h h' T := by
  obtain ⟨sx, nx⟩ := r.srcO B o.sX o.bX s o.mem x ex
  refine ⟨fun i _ => by rw [j.blk], fun i k => j.edge i (by have := lt i k; have := j.new; omega), ?_⟩
  intro i k
  exact j.emap i (fun q => dS i k (q ▸ r.outs x sx nx.isB)) (fun q => dS i k (q ▸ r.outs B o.sX o.bX))

theorem Jo.I {b : Nat} (sb : S b) (bb : h.IsB b) : h'.I b = h.I b := by
  obtain ⟨sx, nx⟩ := r.srcO B o.sX o.bX s o.mem x ex
  simp only [Heap.I, j.blk]
  exact j.emap _ (r.sep b x sb bb sx nx.isB) (r.sep b B sb bb o.sX o.bX)

theorem Jo.e {b e : Nat} (sb : S b) (bb : h.IsB b) (m : e ∈ h.O b) : h'.edge e = h.edge e := by
  have := r.lt e (r.memO b sb bb e m)
  exact j.edge e (by have := j.new; omega)

theorem Jo.reg (c : Clean h) : Reg h' (Ext S h h') := by
  obtain ⟨sx, nx⟩ := r.srcO B o.sX o.bX s o.mem x ex
  have sd : Ext S h h' d := .inr ⟨by have := j.new; omega, by have := j.new; have := j.next; omega⟩
  have ei : ∀ b, S b → h.IsB b → ∀ e ∈ h.I b, h'.edge e = h.edge e := by
    intro b sb bb e m
    have := r.lt e (r.memI b sb bb e m)
    exact j.edge e (by have := j.new; omega)
  refine ⟨?_, ?_, ?_, ?_, ?_, ?_, ?_, ?_, ?_, ?_, ?_, ?_⟩
  · rintro i (k | k)
    · have := r.lt i k; have := j.next; omega
    · exact k.2
  · intro b sb bb
    obtain ⟨sb, bb⟩ := j.old c sb bb
    rw [j.blk]; exact .inl (r.ins b sb bb)
  · intro b sb bb
    obtain ⟨sb, bb⟩ := j.old c sb bb
    rw [j.blk]; exact .inl (r.outs b sb bb)
  · intro b sb bb e m
    obtain ⟨sb, bb⟩ := j.old c sb bb
    rw [j.I r o ex sb bb] at m; exact .inl (r.memI b sb bb e m)
  · intro b sb bb e m
    obtain ⟨sb, bb⟩ := j.old c sb bb
    rcases j.O.mp m with m | ⟨k, _⟩
    · exact .inl (r.memO b sb bb e m)
    · rw [k]; exact sd
  · intro b sb bb e m y ey
    obtain ⟨sb, bb⟩ := j.old c sb bb
    rw [j.I r o ex sb bb] at m
    rw [ei b sb bb e m] at ey
    obtain ⟨p, q⟩ := r.srcI b sb bb e m y ey
    exact ⟨.inl p, (j.ng y).mpr q⟩
  · intro b sb bb e m y ey
    obtain ⟨sb, bb⟩ := j.old c sb bb
    rcases j.O.mp m with m | ⟨k, _⟩
    · rw [j.e r o ex sb bb m] at ey
      obtain ⟨p, q⟩ := r.srcO b sb bb e m y ey
      exact ⟨.inl p, (j.ng y).mpr q⟩
    · rw [k, j.src] at ey
      cases ey
      exact ⟨.inl sx, (j.ng x).mpr nx⟩
  · intro b sb bb e m y ey
    obtain ⟨sb, bb⟩ := j.old c sb bb
    rcases j.O.mp m with m | ⟨k, _⟩
    · rw [j.e r o ex sb bb m] at ey
      obtain ⟨p, q⟩ := r.dstO b sb bb e m y ey
      exact ⟨.inl p, (j.ng y).mpr q⟩
    · rw [k, j.dst] at ey; cases ey
  · intro b sb nb e m
    obtain ⟨sb, bb⟩ := j.old c sb nb.isB
    rw [j.I r o ex sb bb] at m
    rw [ei b sb bb e m]
    exact r.insDst b sb ((j.ng b).mp nb) e m
  · intro a b sa na sb nb
    obtain ⟨sa, _⟩ := j.old c sa na.isB
    obtain ⟨sb, _⟩ := j.old c sb nb.isB
    rw [j.blk]; exact r.inj a b sa ((j.ng a).mp na) sb ((j.ng b).mp nb)
  · intro a b sa ba sb bb
    obtain ⟨sa, ba⟩ := j.old c sa ba
    obtain ⟨sb, bb⟩ := j.old c sb bb
    rw [j.blk]; exact r.sep a b sa ba sb bb
  · intro a b sa ba sb bb e m n
    obtain ⟨sa, ba⟩ := j.old c sa ba
    obtain ⟨sb, bb⟩ := j.old c sb bb
    rw [j.I r o ex sa ba] at m
    rcases j.O.mp n with n | ⟨k, _⟩
    · exact r.sepE a b sa ba sb bb e m n
    · have := r.lt e (r.memI a sa ba e m)
      have := j.new; omega

theorem Jo.walk {a y : Nat} {ns : List Nat} (sa : S a) (ba : h.IsB a) (w : Walk h a ns y) : Walk h' a ns y := by
  induction w with
  | one => rw [← j.blk]; exact .one
  | step w m e ih =>
    obtain ⟨p, q⟩ := w.inside r sa ba
    rw [← j.blk]
    exact ih.step (j.O.mpr (.inl m)) (by rw [j.e r o ex p q m]; exact e)

theorem Jo.pe {a e : Nat} {ns : List Nat} (sa : S a) (ba : h.IsB a) (w : PE h a ns e) : PE h' a ns e := by
  obtain ⟨y, w, ey, m⟩ := w
  obtain ⟨p, q⟩ := w.inside r sa ba
  exact ⟨y, j.walk r o ex sa ba w, by rw [j.e r o ex p q m]; exact ey, j.O.mpr (.inl m)⟩

theorem Jo.pre {a : Nat} {ns : List Nat} (sa : S a) (ba : h.IsB a) (w : Pre h a ns) : Pre h' a ns := by
  obtain ⟨y, v, w, p⟩ := w
  exact ⟨y, v, j.walk r o ex sa ba w, p⟩

/-- Where `s` can be taken, so can the new jump. -/
theorem Jo.peNew {a : Nat} {ns : List Nat} (sa : S a) (ba : h.IsB a) (w : PE h a ns s) : PE h' a ns d := by
  obtain ⟨y, w, ey, m⟩ := w
  rw [ex] at ey
  cases ey
  exact ⟨x, j.walk r o ex sa ba w, j.src, j.O.mpr (.inr ⟨rfl, .inl rfl⟩)⟩

theorem Jo.jxNew {a : Nat} {ns : List Nat} {b : Bool} (tb : t.on b = true) (sa : S a) (ba : h.IsB a) (w : PE h a ns s) : Jx h' a B ns b :=
  ⟨d, j.O.mpr (.inr ⟨rfl, .inr rfl⟩), j.kind, j.dst, by rw [Tag.on_like j.tag]; exact tb, j.peNew r o ex sa ba w⟩

theorem Jo.jx {a X : Nat} {ns : List Nat} {b : Bool} (sa : S a) (ba : h.IsB a) (sX : S X) (bX : h.IsB X) (k : Jx h a X ns b) : Jx h' a X ns b := by
  obtain ⟨e, m, k1, k2, k3, k4⟩ := k
  have q := j.e r o ex sX bX m
  exact ⟨e, j.O.mpr (.inl m), by rw [q]; exact k1, by rw [q]; exact k2, by rw [q]; exact k3, j.pe r o ex sa ba k4⟩

theorem Jo.ends {a X s' : Nat} {ns : List Nat} {res : Res} (sa : S a) (ba : h.IsB a) (sX : S X) (bX : h.IsB X) (k : Ends h a X s' ns res) :
    Ends h' a X s' ns res := by
  cases res with
  | stop => exact j.pre r o ex sa ba k
  | val b => exact k.imp (j.pe r o ex sa ba) (j.jx r o ex sa ba sX bX)

theorem Jo.inn {A e : Nat} (i : In h S A e) : In h' (Ext S h h') A e := by
  obtain ⟨k, m, q⟩ := i.seq
  refine ⟨.inl i.sB, (j.isB A).mpr i.bB, .inl i.se, (j.ng e).mpr i.ne, by rw [j.blk]; exact i.ins, k, by rw [j.I r o ex i.se i.ne.isB]; exact m, ?_⟩
  have := r.lt k (r.memI e i.se i.ne.isB k m)
  rw [j.edge k (by have := j.new; omega)]; exact q

theorem Jo.fresh (c : Clean h) {e : Nat} (se : S e) (ne : h.Ng e) (f : Fresh h S e) : Fresh h' (Ext S h h') e := by
  obtain ⟨i, ei, ki⟩ := f.one
  have li := r.lt i (r.memI e se ne.isB i (by rw [ei]; simp))
  refine ⟨⟨i, by rw [j.I r o ex se ne.isB]; exact ei, by rw [j.edge i (by have := j.new; omega)]; exact ki⟩, ?_, ?_⟩
  · intro b sb bb k m
    obtain ⟨sb, bb⟩ := j.old c sb bb
    rcases j.O.mp m with m | ⟨z, _⟩
    · rw [j.e r o ex sb bb m]; exact f.lead b sb bb k m
    · rw [z, j.dst]; simp
  · intro k m
    rcases j.O.mp m with m | ⟨z, q⟩
    · rw [j.e r o ex se ne.isB m]; exact f.own k m
    · rw [z, j.src]
      have ms : s ∈ h.O e := by
        obtain ⟨x', ex', mx⟩ := o.live
        rw [ex] at ex'; cases ex'
        rcases q with q | q
        · simp only [Heap.O, q]; exact mx
        · simp only [Heap.O, q]; exact o.mem
      rw [← f.own s ms, ex]

theorem Jo.out {X s' : Nat} (o' : Out h S X s') : Out h' (Ext S h h') X s' := by
  obtain ⟨y, ey, my⟩ := o'.live
  have q := j.e r o ex o'.sX o'.bX o'.mem
  refine ⟨.inl o'.sX, (j.isB X).mpr o'.bX, j.O.mpr (.inl o'.mem), by rw [q]; exact o'.kind, by rw [q]; exact o'.hang,
    ⟨y, by rw [q]; exact ey, j.O.mpr (.inl my)⟩, ?_⟩
  intro k m z
  rcases j.O.mp m with m | ⟨w, _⟩
  · rw [j.e r o ex o'.sX o'.bX m] at z; exact o'.uniq k m z
  · rw [w, j.kind] at z; cases z

theorem Jo.more : (h'.edge s).src = some x ∧ ∀ k, h'.O x ≠ [k] := by
  obtain ⟨x', ex', mx⟩ := o.live
  rw [ex] at ex'; cases ex'
  refine ⟨by rw [j.e r o ex o.sX o.bX o.mem]; exact ex, ?_⟩
  intro k q
  have a : s ∈ h'.O x := j.O.mpr (.inl mx)
  have b : d ∈ h'.O x := j.O.mpr (.inr ⟨rfl, .inl rfl⟩)
  rw [q] at a b
  have := List.mem_singleton.mp a
  have := List.mem_singleton.mp b
  have := r.lt s (r.memO B o.sX o.bX s o.mem)
  have := j.new
  omega

theorem Jo.part (c : Clean h) {A e X s' : Nat} (p : Part h S A e X s') : Part h' (Ext S h h') A e X s' :=
  ⟨j.reg r o ex c, j.inn r o ex p.inA, j.fresh r o ex c p.inA.se p.inA.ne p.fr, j.out r o ex p.out⟩

end jo

/-- A hanging edge `d` into block `e` was added. -/
structure Ji (h h' : Heap) (e d : Nat) : Prop where
  next : h'.next = h.next + 1
  new : d = h.next
  blk : h'.blk = h.blk
  edge : ∀ c, c ≠ d → h'.edge c = h.edge c
  kind : (h'.edge d).kind = .jmp
  src : (h'.edge d).src = none
  dst : (h'.edge d).dst = some e
  emap : ∀ m, m ≠ (h.blk e).ins → h'.emap m = h.emap m
  I : h'.I e = h.I e ++ [d]

theorem newJmpIn_ji {ω : Order} (fair : ω.Fair) {h : Heap} {S : Nat → Prop} (r : Reg h S) {B e : Nat} (i : In h S B e) (t : Tag) :
    ∃ h', h.newJmpIn ω B t = some h' ∧ Ji h h' e h.next := by
  obtain ⟨k, mk, kk⟩ := i.seq
  have mB : k ∈ h.emap (h.blk B).ins := by rw [i.ins]; exact mk
  obtain ⟨j, ej⟩ := pick_isSome fair (site := 10) (p := fun e => decide (e.kind = EK.seq)) mB (by simpa using kk)
  obtain ⟨mj, _⟩ := pick_some fair ej
  rw [i.ins] at mj
  have dj := r.insDst e i.se i.ne j mj
  rw [Heap.newJmpIn, Heap.inSeq, ej, Option.bind_some, dj]
  let p := h.newEdge (h.blk e).ins ⟨.jmp, t, none, some e⟩
  have pe : p.1.edge h.next = ⟨.jmp, t, none, some e⟩ := upd_self _ _ _
  have pm : p.1.emap (h.blk e).ins = h.I e ++ [h.next] := upd_self _ _ _
  refine ⟨if e ≠ B then p.1.setMap (p.1.blk B).ins (Heap.addKey (p.1.emap (p.1.blk B).ins) p.2) else p.1, rfl, ?_⟩
  have base : Ji h p.1 e h.next := ⟨rfl, rfl, rfl, fun c n => upd_ne _ _ n, by rw [pe], by rw [pe], by rw [pe],
    fun m k => upd_ne _ _ k, pm⟩
  split
  · refine ⟨base.next, base.new, base.blk, base.edge, base.kind, base.src, base.dst, ?_, ?_⟩
    · intro m k
      show upd p.1.emap (h.blk B).ins _ m = _
      rw [upd_ne _ _ (by rw [i.ins]; exact k)]; exact base.emap m k
    · show upd p.1.emap (h.blk B).ins (Heap.addKey (p.1.emap (h.blk B).ins) h.next) (h.blk e).ins = _
      rw [i.ins, upd_self, pm]
      simp [Heap.addKey]
  · exact base

section ji

variable {h h' : Heap} {S : Nat → Prop} {B e d : Nat} (j : Ji h h' e d) (c : Clean h) (r : Reg h S) (i : In h S B e)

include j

theorem Ji.ng (b : Nat) : h'.Ng b ↔ h.Ng b := by simp only [Heap.Ng, j.blk]

theorem Ji.isB (b : Nat) : h'.IsB b ↔ h.IsB b := by simp only [Heap.IsB, j.blk]

theorem Ji.clean (c : Clean h) : Clean h' := by
  intro k q
  rw [j.isB]
  exact c k (by rw [j.next] at q; omega)

theorem Ji.old {b : Nat} (c : Clean h) (sb : Ext S h h' b) (k : h'.IsB b) : S b ∧ h.IsB b := by
  have k := (j.isB b).mp k
  rcases sb with sb | ⟨sb, _⟩
  · exact ⟨sb, k⟩
  · exact absurd k (c b sb)

include r i

theorem Ji.frame {T : Nat → Prop} (lt : ∀ k, T k → k < h.next) (dS : ∀ k, T k → ¬ S k) : Agree h h' T :=
  ⟨fun k _ => by rw [j.blk], fun k q => j.edge k (by have := lt k q; have := j.new; omega),
    fun k q => j.emap k (fun z => dS k q (z ▸ r.ins e i.se i.ne.isB))⟩

theorem Ji.O {b : Nat} (sb : S b) (bb : h.IsB b) : h'.O b = h.O b := by
  simp only [Heap.O, j.blk]
  exact j.emap _ (fun z => r.sep e b i.se i.ne.isB sb bb z.symm)

theorem Ji.eq {k : Nat} (s : S k) : h'.edge k = h.edge k := j.edge k (by have := r.lt k s; have := j.new; omega)

theorem Ji.mI {b k : Nat} (sb : S b) (bb : h.IsB b) (m : k ∈ h'.I b) : k ∈ h.I b ∨ (k = d ∧ (h.blk b).ins = (h.blk e).ins) := by
  by_cases q : (h.blk b).ins = (h.blk e).ins
  · have : h'.I b = h'.I e := by simp only [Heap.I, j.blk, q]
    rw [this, j.I] at m
    rcases List.mem_append.mp m with m | m
    · refine .inl ?_
      simp only [Heap.I] at m ⊢
      rw [q]; exact m
    · exact .inr ⟨List.mem_singleton.mp m, q⟩
  · refine .inl ?_
    simp only [Heap.I, j.blk] at m ⊢
    rwa [j.emap _ q] at m

theorem Ji.reg (c : Clean h) : Reg h' (Ext S h h') := by
  have sd : Ext S h h' d := .inr ⟨by have := j.new; omega, by have := j.new; have := j.next; omega⟩
  refine ⟨?_, ?_, ?_, ?_, ?_, ?_, ?_, ?_, ?_, ?_, ?_, ?_⟩
  · rintro i (k | k)
    · have := r.lt i k; have := j.next; omega
    · exact k.2
  · intro b sb bb
    obtain ⟨sb, bb⟩ := j.old c sb bb
    rw [j.blk]; exact .inl (r.ins b sb bb)
  · intro b sb bb
    obtain ⟨sb, bb⟩ := j.old c sb bb
    rw [j.blk]; exact .inl (r.outs b sb bb)
  · intro b sb bb k m
    obtain ⟨sb, bb⟩ := j.old c sb bb
    rcases j.mI r i sb bb m with m | ⟨m, _⟩
    · exact .inl (r.memI b sb bb k m)
    · rw [m]; exact sd
  · intro b sb bb k m
    obtain ⟨sb, bb⟩ := j.old c sb bb
    rw [j.O r i sb bb] at m; exact .inl (r.memO b sb bb k m)
  · intro b sb bb k m y ey
    obtain ⟨sb, bb⟩ := j.old c sb bb
    rcases j.mI r i sb bb m with m | ⟨m, _⟩
    · rw [j.eq r i (r.memI b sb bb k m)] at ey
      obtain ⟨p, q⟩ := r.srcI b sb bb k m y ey
      exact ⟨.inl p, (j.ng y).mpr q⟩
    · rw [m, j.src] at ey; cases ey
  · intro b sb bb k m y ey
    obtain ⟨sb, bb⟩ := j.old c sb bb
    rw [j.O r i sb bb] at m
    rw [j.eq r i (r.memO b sb bb k m)] at ey
    obtain ⟨p, q⟩ := r.srcO b sb bb k m y ey
    exact ⟨.inl p, (j.ng y).mpr q⟩
  · intro b sb bb k m y ey
    obtain ⟨sb, bb⟩ := j.old c sb bb
    rw [j.O r i sb bb] at m
    rw [j.eq r i (r.memO b sb bb k m)] at ey
    obtain ⟨p, q⟩ := r.dstO b sb bb k m y ey
    exact ⟨.inl p, (j.ng y).mpr q⟩
  · intro b sb nb k m
    obtain ⟨sb, bb⟩ := j.old c sb nb.isB
    rcases j.mI r i sb bb m with m | ⟨m, z⟩
    · rw [j.eq r i (r.memI b sb bb k m)]
      exact r.insDst b sb ((j.ng b).mp nb) k m
    · rw [m, j.dst, r.inj b e sb ((j.ng b).mp nb) i.se i.ne z]
  · intro a b sa na sb nb
    obtain ⟨sa, _⟩ := j.old c sa na.isB
    obtain ⟨sb, _⟩ := j.old c sb nb.isB
    rw [j.blk]; exact r.inj a b sa ((j.ng a).mp na) sb ((j.ng b).mp nb)
  · intro a b sa ba sb bb
    obtain ⟨sa, ba⟩ := j.old c sa ba
    obtain ⟨sb, bb⟩ := j.old c sb bb
    rw [j.blk]; exact r.sep a b sa ba sb bb
  · intro a b sa ba sb bb k m n
    obtain ⟨sa, ba⟩ := j.old c sa ba
    obtain ⟨sb, bb⟩ := j.old c sb bb
    rw [j.O r i sb bb] at n
    rcases j.mI r i sa ba m with m | ⟨m, _⟩
    · exact r.sepE a b sa ba sb bb k m n
    · have := r.lt k (r.memO b sb bb k n)
      have := j.new; omega

theorem Ji.walk {a y : Nat} {ns : List Nat} (sa : S a) (ba : h.IsB a) (w : Walk h a ns y) : Walk h' a ns y := by
  induction w with
  | one => rw [← j.blk]; exact .one
  | step w m z ih =>
    obtain ⟨p, q⟩ := w.inside r sa ba
    rw [← j.blk]
    exact ih.step (by rw [j.O r i p q]; exact m) (by rw [j.eq r i (r.memO _ p q _ m)]; exact z)

theorem Ji.pe {a k : Nat} {ns : List Nat} (sa : S a) (ba : h.IsB a) (w : PE h a ns k) : PE h' a ns k := by
  obtain ⟨y, w, ey, m⟩ := w
  obtain ⟨p, q⟩ := w.inside r sa ba
  exact ⟨y, j.walk r i sa ba w, by rw [j.eq r i (r.memO _ p q _ m)]; exact ey, by rw [j.O r i p q]; exact m⟩

theorem Ji.pre {a : Nat} {ns : List Nat} (sa : S a) (ba : h.IsB a) (w : Pre h a ns) : Pre h' a ns := by
  obtain ⟨y, v, w, p⟩ := w
  exact ⟨y, v, j.walk r i sa ba w, p⟩

theorem Ji.jx {a X : Nat} {ns : List Nat} {b : Bool} (sa : S a) (ba : h.IsB a) (sX : S X) (bX : h.IsB X) (k : Jx h a X ns b) : Jx h' a X ns b := by
  obtain ⟨z, m, k1, k2, k3, k4⟩ := k
  have q := j.eq r i (r.memO X sX bX z m)
  exact ⟨z, by rw [j.O r i sX bX]; exact m, by rw [q]; exact k1, by rw [q]; exact k2, by rw [q]; exact k3, j.pe r i sa ba k4⟩

theorem Ji.ends {a X s' : Nat} {ns : List Nat} {res : Res} (sa : S a) (ba : h.IsB a) (sX : S X) (bX : h.IsB X) (k : Ends h a X s' ns res) :
    Ends h' a X s' ns res := by
  cases res with
  | stop => exact j.pre r i sa ba k
  | val b => exact k.imp (j.pe r i sa ba) (j.jx r i sa ba sX bX)

theorem Ji.inn {A : Nat} (i' : In h S A e) : In h' (Ext S h h') A e := by
  obtain ⟨k, m, q⟩ := i'.seq
  exact ⟨.inl i'.sB, (j.isB A).mpr i'.bB, .inl i'.se, (j.ng e).mpr i'.ne, by rw [j.blk]; exact i'.ins, k, by rw [j.I]; exact List.mem_append_left _ m,
    by rw [j.eq r i (r.memI e i.se i.ne.isB k m)]; exact q⟩

theorem Ji.not_only : h'.onlySeqIn B = false :=
  Mole.Cfg.not_only (j.inn r i i) (k := .jmp) (by simp) ⟨d, by rw [j.I]; simp, j.kind⟩

theorem Ji.out {X s' : Nat} (o : Out h S X s') : Out h' (Ext S h h') X s' := by
  obtain ⟨y, ey, my⟩ := o.live
  obtain ⟨sy, ny⟩ := r.srcO X o.sX o.bX s' o.mem y ey
  have q := j.eq r i (r.memO X o.sX o.bX s' o.mem)
  refine ⟨.inl o.sX, (j.isB X).mpr o.bX, by rw [j.O r i o.sX o.bX]; exact o.mem, by rw [q]; exact o.kind, by rw [q]; exact o.hang,
    ⟨y, by rw [q]; exact ey, by rw [j.O r i sy ny.isB]; exact my⟩, ?_⟩
  intro k m z
  rw [j.O r i o.sX o.bX] at m
  rw [j.eq r i (r.memO X o.sX o.bX k m)] at z
  exact o.uniq k m z

end ji

end Mole.Cfg
