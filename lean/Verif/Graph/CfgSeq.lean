import Verif.Graph.CfgLink

/-! What linking two fragments of a graph does to the walks through them, whether `link` adds an edge or joins two blocks. -/

namespace Mole.Cfg

/-- The union of two parts. -/
def Un (U V : Nat → Prop) : Nat → Prop := fun i => U i ∨ V i

/-- Linking by adding edges, inside part `S`: edges satisfying `C`, which were hanging, now lead to `to`. -/
structure EM (h h' : Heap) (S : Nat → Prop) (to : Nat) (C : Nat → Prop) : Prop where
  ex : ∃ ds, (∀ d ∈ ds, ∃ b, S b ∧ h.IsB b ∧ d ∈ h.O b) ∧ Lk h h' ds to C
  hang : ∀ d, C d → (h.edge d).dst = none
  mem : ∀ d, C d → ∃ b, S b ∧ h.IsB b ∧ d ∈ h.O b

section em

variable {h h' h'' : Heap} {S : Nat → Prop} {to : Nat} {C C' : Nat → Prop} (c : Clean h) (r : Reg h S) (sto : S to) (nto : h.Ng to)

theorem EM.next (m : EM h h' S to C) : h.next ≤ h'.next := let ⟨_, _, l⟩ := m.ex; l.next
theorem EM.blk (m : EM h h' S to C) : h'.blk = h.blk := let ⟨_, _, l⟩ := m.ex; l.blk
theorem EM.clean (m : EM h h' S to C) (c : Clean h) : Clean h' := let ⟨_, _, l⟩ := m.ex; l.clean c
theorem EM.ng (m : EM h h' S to C) (b : Nat) : h'.Ng b ↔ h.Ng b := let ⟨_, _, l⟩ := m.ex; l.ng b
theorem EM.isB (m : EM h h' S to C) (b : Nat) : h'.IsB b ↔ h.IsB b := let ⟨_, _, l⟩ := m.ex; l.isB b

include r sto nto

theorem EM.reg (m : EM h h' S to C) (c : Clean h) : Reg h' (Ext S h h') := by
  obtain ⟨ds, sd, l⟩ := m.ex
  refine l.reg c r sto nto m.hang ?_
  intro d k x e
  obtain ⟨b, sb, bb, mb⟩ := sd d k
  exact r.srcO b sb bb d mb x e

theorem EM.O (m : EM h h' S to C) {b : Nat} (s : S b) (k : h.IsB b) : h'.O b = h.O b :=
  let ⟨_, _, l⟩ := m.ex; l.O r sto nto s k

theorem EM.out {b d : Nat} (s : S b) (k : h.IsB b) (md : d ∈ h.O b) : d < h.next ∧ d ∉ h.I to :=
  ⟨r.lt d (r.memO b s k d md), fun q => r.sepE to b sto nto.isB s k d q md⟩

theorem EM.src (m : EM h h' S to C) {b d : Nat} (s : S b) (k : h.IsB b) (md : d ∈ h.O b) : (h'.edge d).src = (h.edge d).src := by
  obtain ⟨_, _, l⟩ := m.ex
  obtain ⟨p, q⟩ := EM.out r sto nto s k md
  exact l.src d p q

theorem EM.like (m : EM h h' S to C) {b d : Nat} (s : S b) (k : h.IsB b) (md : d ∈ h.O b) : (h'.edge d).tag.Like (h.edge d).tag := by
  obtain ⟨_, _, l⟩ := m.ex
  obtain ⟨p, q⟩ := EM.out r sto nto s k md
  exact l.like d p q

theorem EM.hit (m : EM h h' S to C) {d : Nat} (cd : C d) : (h'.edge d).dst = some to := by
  obtain ⟨_, _, l⟩ := m.ex
  obtain ⟨b, sb, bb, mb⟩ := m.mem d cd
  exact l.hit d (r.lt d (r.memO b sb bb d mb)) cd

theorem EM.walk (m : EM h h' S to C) {a x : Nat} {ns : List Nat} (sa : S a) (na : h.IsB a) (w : Walk h a ns x) : Walk h' a ns x := by
  induction w with
  | one => rw [← m.blk]; exact .one
  | step w md e ih =>
    obtain ⟨p, q⟩ := w.inside r sa na
    obtain ⟨_, _, l⟩ := m.ex
    rw [← m.blk]
    refine ih.step (by rw [m.O r sto nto p q]; exact md) ?_
    rw [l.miss _ (r.lt _ (r.memO _ p q _ md)) (fun k => by rw [m.hang _ k] at e; cases e)]
    exact e

theorem EM.pe (m : EM h h' S to C) {a d : Nat} {ns : List Nat} (sa : S a) (na : h.IsB a) (w : PE h a ns d) : PE h' a ns d := by
  obtain ⟨x, w, e, md⟩ := w
  obtain ⟨p, q⟩ := w.inside r sa na
  refine ⟨x, m.walk r sto nto sa na w, ?_, ?_⟩
  · rw [m.src r sto nto p q md]; exact e
  · rw [m.O r sto nto p q]; exact md

theorem EM.pre (m : EM h h' S to C) {a : Nat} {ns : List Nat} (sa : S a) (na : h.IsB a) (w : Pre h a ns) : Pre h' a ns := by
  obtain ⟨x, v, w, p⟩ := w
  exact ⟨x, v, m.walk r sto nto sa na w, p⟩

theorem EM.trans (m : EM h h' S to C) (n : EM h' h'' (Ext S h h') to C') (c : Clean h) :
    EM h h'' S to (fun d => C d ∨ C' d) := by
  obtain ⟨ds, sd, l⟩ := m.ex
  obtain ⟨ds', sd', l'⟩ := n.ex
  have old : ∀ b d, Ext S h h' b → h'.IsB b → d ∈ h'.O b → S b ∧ h.IsB b ∧ d ∈ h.O b := by
    intro b d s k md
    obtain ⟨s, k⟩ := Ext.isB l c s k
    rw [m.O r sto nto s k] at md
    exact ⟨s, k, md⟩
  refine ⟨⟨ds ++ ds', ?_, ?_⟩, ?_, ?_⟩
  · intro d q
    rcases List.mem_append.mp q with q | q
    · exact sd d q
    · obtain ⟨b, s, k, md⟩ := sd' d q
      exact ⟨b, old b d s k md⟩
  · refine Lk.trans ?_ (fun e => r.sep to to sto nto.isB sto nto.isB e.symm) ?_ l l'
    · intro d q
      obtain ⟨b, s, k, md⟩ := sd' d q
      obtain ⟨s, k, md⟩ := old b d s k md
      exact (EM.out r sto nto s k md).1
    · intro d q
      obtain ⟨b, s, k, md⟩ := sd' d q
      obtain ⟨s, k, md⟩ := old b d s k md
      exact (EM.out r sto nto s k md).2
  · rintro d (q | q)
    · exact m.hang d q
    · obtain ⟨b, s, k, md⟩ := n.mem d q
      obtain ⟨s, k, md⟩ := old b d s k md
      have hd := n.hang d q
      by_cases cd : C d
      · exact m.hang d cd
      · rw [← l.miss d (EM.out r sto nto s k md).1 cd]; exact hd
  · rintro d (q | q)
    · exact m.mem d q
    · obtain ⟨b, s, k, md⟩ := n.mem d q
      exact ⟨b, old b d s k md⟩

end em

/-- Block `x` is left by edge `s` only, which is hanging. -/
structure Tidy (h : Heap) (x s : Nat) : Prop where
  only : h.O x = [s]
  src : (h.edge s).src = some x
  hang : (h.edge s).dst = none

/-- What linking fragment `V`, entered at `to`, behind the edges `Q` of fragment `U` does. -/
structure LS (h h' : Heap) (U V : Nat → Prop) (to : Nat) (Q : Nat → Prop) : Prop where
  next : h.next ≤ h'.next
  clean : Clean h'
  reg : Reg h' (Ext (Un U V) h h')
  agree : Agree h h' (fun i => i < h.next ∧ ¬ U i ∧ ¬ V i)
  bk : ∀ b, (h'.blk b).kind = (h.blk b).kind
  bi : ∀ b, (h'.blk b).ins = (h.blk b).ins
  kind : ∀ d, d < h.next → (h'.edge d).kind = (h.edge d).kind
  like : ∀ b, Un U V b → h.IsB b → ∀ d ∈ h.O b, (h'.edge d).tag.Like (h.edge d).tag
  dst : ∀ b, Un U V b → h.IsB b → ∀ d ∈ h.O b, ¬ Q d → (h'.edge d).dst = (h.edge d).dst
  outs : ∀ b, Un U V b → h.IsB b → h'.O b = h.O b ∨ (U b ∧ h'.O b = h.O to ∧ ∀ d ∈ h.O b, Q d)
  ins : ∀ b, Un U V b → h.Ng b → b ≠ to → h'.I b = h.I b
  lead : ∀ b, Un U V b → h.IsB b → ∀ d ∈ h'.O b, ∀ y, (h'.edge d).dst = some y →
    y = to ∨ ∃ b', Un U V b' ∧ h.IsB b' ∧ d ∈ h.O b' ∧ (h.edge d).dst = some y
  own : ∀ b, Un U V b → h.Ng b → b ≠ to → (∀ d ∈ h.O b, (h.edge d).src = some b) → ∀ d ∈ h'.O b, (h'.edge d).src = some b
  keep : ∀ x, V x → h.Ng x → ∃ x', (∀ d, (h.edge d).src = some x → d ∈ h.O x → (h'.edge d).src = some x' ∧ d ∈ h'.O x') ∧
    ∀ n ∈ (h.blk x).nodes, n ∈ (h'.blk x').nodes
  tidy : ∀ x d, V x → h.Ng x → Tidy h x d → ¬ Q d → ∃ x', Tidy h' x' d
  tA : ∀ a ns d, U a → h.Ng a → PE h a ns d → ¬ Q d → PE h' a ns d
  tAp : ∀ a ns, U a → h.Ng a → Pre h a ns → Pre h' a ns
  tB : ∀ a ns ms c d, U a → h.Ng a → PE h a ns c → Q c → PE h to ms d → PE h' a (ns ++ ms) d
  tBp : ∀ a ns ms c, U a → h.Ng a → PE h a ns c → Q c → Pre h to ms → Pre h' a (ns ++ ms)

theorem PE.cat {h : Heap} {a c to d : Nat} {ns ms : List Nat} (p : PE h a ns c) (e : (h.edge c).dst = some to) (q : PE h to ms d) :
    PE h a (ns ++ ms) d := by
  obtain ⟨x, w, _, m⟩ := p
  obtain ⟨y, v, k, n⟩ := q
  exact ⟨y, w.trans m e v, k, n⟩

theorem PE.catPre {h : Heap} {a c to : Nat} {ns ms : List Nat} (p : PE h a ns c) (e : (h.edge c).dst = some to) (q : Pre h to ms) :
    Pre h a (ns ++ ms) := by
  obtain ⟨x, w, _, m⟩ := p
  obtain ⟨y, l, v, k⟩ := q
  exact ⟨y, ns ++ l, w.trans m e v, (List.prefix_append_right_inj ns).mpr k⟩

theorem EM.ls {h h' : Heap} {U V : Nat → Prop} {to : Nat} {C : Nat → Prop} (c : Clean h) (r : Reg h (Un U V))
    (vto : V to) (nto : h.Ng to) (m : EM h h' (Un U V) to C) : LS h h' U V to C := by
  have sto : Un U V to := .inr vto
  obtain ⟨ds, sd, l⟩ := m.ex
  refine ⟨m.next, m.clean c, m.reg r sto nto c, ⟨?_, ?_, ?_⟩, ?_, ?_, l.kind, ?_, ?_, ?_, ?_, ?_, ?_, ?_, ?_, ?_, ?_, ?_, ?_⟩
  · intro i _; rw [m.blk]
  · rintro i ⟨lt, nu, nv⟩
    have no : ¬ Un U V i := fun k => k.elim nu nv
    refine l.frame i lt ?_ ?_ ?_
    · intro q
      obtain ⟨b, sb, bb, mb⟩ := sd i q
      exact no (r.memO b sb bb i mb)
    · intro q; exact no (r.memI to sto nto.isB i q)
    · intro q; exact no (r.memO to sto nto.isB i q)
  · rintro i ⟨lt, nu, nv⟩
    exact l.emap i (fun e => (fun k : Un U V i => k.elim nu nv) (e ▸ r.ins to sto nto.isB))
  · intro b; rw [m.blk]
  · intro b; rw [m.blk]
  · intro b sb bb d md
    exact m.like r sto nto sb bb md
  · intro b sb bb d md nq
    exact l.miss d (r.lt d (r.memO b sb bb d md)) nq
  · intro b sb bb
    exact .inl (m.O r sto nto sb bb)
  · intro b sb nb ne
    exact l.Ine (fun e => ne (r.inj b to sb nb sto nto e))
  · intro b sb bb d md y e
    rw [m.O r sto nto sb bb] at md
    by_cases cd : C d
    · rw [m.hit r sto nto cd] at e
      exact .inl (Option.some.inj e).symm
    · rw [l.miss d (r.lt d (r.memO b sb bb d md)) cd] at e
      exact .inr ⟨b, sb, bb, md, e⟩
  · intro b sb nb ne o d md
    rw [m.O r sto nto sb nb.isB] at md
    rw [m.src r sto nto sb nb.isB md]; exact o d md
  · intro x vx nx
    refine ⟨x, fun d ex md => ⟨?_, ?_⟩, ?_⟩
    · rw [m.src r sto nto (.inr vx) nx.isB md]; exact ex
    · rw [m.O r sto nto (.inr vx) nx.isB]; exact md
    · intro n k; rw [m.blk]; exact k
  · intro x d vx nx t nq
    have md : d ∈ h.O x := by rw [t.only]; simp
    refine ⟨x, ?_, ?_, ?_⟩
    · rw [m.O r sto nto (.inr vx) nx.isB]; exact t.only
    · rw [m.src r sto nto (.inr vx) nx.isB md]; exact t.src
    · rw [l.miss d (r.lt d (r.memO x (.inr vx) nx.isB d md)) nq]; exact t.hang
  · intro a ns d ua na p _
    exact m.pe r sto nto (.inl ua) na.isB p
  · intro a ns ua na p
    exact m.pre r sto nto (.inl ua) na.isB p
  · intro a ns ms x d ua na p q p'
    exact (m.pe r sto nto (.inl ua) na.isB p).cat (m.hit r sto nto q) (m.pe r sto nto sto nto.isB p')
  · intro a ns ms x ua na p q p'
    exact (m.pe r sto nto (.inl ua) na.isB p).catPre (m.hit r sto nto q) (m.pre r sto nto sto nto.isB p')

/-- What `retarget` does. -/
structure Ret (h h' : Heap) (l : List Nat) (src : Nat) : Prop where
  blk : h'.blk = h.blk
  emap : h'.emap = h.emap
  next : h'.next = h.next
  kind : ∀ d, (h'.edge d).kind = (h.edge d).kind
  dst : ∀ d, (h'.edge d).dst = (h.edge d).dst
  like : ∀ d, (h'.edge d).tag.Like (h.edge d).tag
  hit : ∀ d ∈ l, (h'.edge d).src = some src
  miss : ∀ d, d ∉ l → h'.edge d = h.edge d

theorem retarget_ret (src : Nat) (cut : Bool) (l : List Nat) : ∀ h : Heap, Ret h (h.retarget src cut l) l src := by
  induction l with
  | nil =>
    intro h
    exact ⟨rfl, rfl, rfl, fun _ => rfl, fun _ => rfl, fun _ => rfl, by simp, fun _ _ => rfl⟩
  | cons d l ih =>
    intro h
    rw [Heap.retarget]
    have r := ih (h.setEdge d { h.edge d with src := some src, tag := if cut && decide ((h.edge d).dst = none) then (h.edge d).tag.withCut else (h.edge d).tag })
    have e : ∀ c, (h.setEdge d { h.edge d with src := some src, tag := if cut && decide ((h.edge d).dst = none) then (h.edge d).tag.withCut else (h.edge d).tag }).edge c =
      if c = d then { h.edge d with src := some src, tag := if cut && decide ((h.edge d).dst = none) then (h.edge d).tag.withCut else (h.edge d).tag } else h.edge c := fun _ => rfl
    refine ⟨r.blk, r.emap, r.next, ?_, ?_, ?_, ?_, ?_⟩
    · intro c; rw [r.kind, e]; split
      · next k => rw [k]
      · rfl
    · intro c; rw [r.dst, e]; split
      · next k => rw [k]
      · rfl
    · intro c
      refine (r.like c).trans ?_
      rw [e]; split
      · next k =>
        rw [k]
        show Tag.Like (if _ then _ else _) _
        split
        · exact Tag.like_cut _
        · exact .refl _
      · exact .refl _
    · intro c m
      by_cases k : c ∈ l
      · exact r.hit c k
      · rw [r.miss c k, e, if_pos ((List.mem_cons.mp m).resolve_right k)]
    · intro c n
      simp only [List.mem_cons, not_or] at n
      rw [r.miss c n.2, e, if_neg n.1]

/-- Fragment `B` of part `S` is entered at `e`, to which no edge leads yet, and which has only its own edges. -/
structure Fresh (h : Heap) (S : Nat → Prop) (e : Nat) : Prop where
  one : ∃ i, h.I e = [i] ∧ (h.edge i).kind = .seq
  lead : ∀ b, S b → h.IsB b → ∀ d ∈ h.O b, (h.edge d).dst ≠ some e
  own : ∀ d ∈ h.O e, (h.edge d).src = some e

theorem join_ls {ω : Order} (fair : ω.Fair) {h : Heap} {U V : Nat → Prop} {X B x s e : Nat} (c : Clean h) (rU : Reg h U) (rV : Reg h V)
    (dis : ∀ i, U i → ¬ V i) (ux : U x) (nx : h.Ng x) (td : Tidy h x s) (inB : In h V B e) (fr : Fresh h V e)
    (uw : h.unwrapOut ω 2 X = some x) :
    ∃ h', h.join ω X B = some h' ∧ LS h h' U V e (fun d => d = s) := by
  have r : Reg h (Un U V) := rU.union rV dis
  have xe : x ≠ e := fun k => dis x ux (k ▸ inB.se)
  let v : Block := { h.blk x with nodes := (h.blk x).nodes ++ (h.blk e).nodes, outs := (h.blk e).outs }
  let h1 : Heap := h.setBlk x v
  let l := h1.range ω 3 (h1.blk x).outs
  let h2 := h1.retarget x (h1.isInCut x) l
  have jn : h.join ω X B = some h2 := by
    rw [Heap.join, unwrapIn_eq fair rV inB, Option.bind_some, uw]
    rfl
  have rt : Ret h1 h2 l x := retarget_ret x _ l h1
  have b1x : h1.blk x = v := upd_self _ _ _
  have b1 : ∀ b, b ≠ x → h1.blk b = h.blk b := fun b k => upd_ne _ _ k
  have ml : ∀ d, d ∈ l ↔ d ∈ h.O e := by
    intro d
    have : d ∈ l ↔ d ∈ h1.emap (h1.blk x).outs := mem_range fair
    rw [this, b1x]
    exact Iff.rfl
  have b2x : h2.blk x = v := by rw [rt.blk]; exact b1x
  have b2 : ∀ b, b ≠ x → h2.blk b = h.blk b := fun b k => by rw [rt.blk]; exact b1 b k
  have bk : ∀ b, (h2.blk b).kind = (h.blk b).kind := by
    intro b
    by_cases k : b = x
    · rw [k, b2x]
    · rw [b2 b k]
  have bi : ∀ b, (h2.blk b).ins = (h.blk b).ins := by
    intro b
    by_cases k : b = x
    · rw [k, b2x]
    · rw [b2 b k]
  have ng : ∀ b, h2.Ng b ↔ h.Ng b := fun b => by simp only [Heap.Ng, bk]
  have isB : ∀ b, h2.IsB b ↔ h.IsB b := fun b => by simp only [Heap.IsB, bk]
  have em : h2.emap = h.emap := rt.emap
  have I2 : ∀ b, h2.I b = h.I b := fun b => by simp only [Heap.I, em, bi]
  have O2x : h2.O x = h.O e := by simp only [Heap.O, em, b2x, v]
  have O2 : ∀ b, b ≠ x → h2.O b = h.O b := fun b k => by simp only [Heap.O, em, b2 b k]
  have k2 : ∀ d, (h2.edge d).kind = (h.edge d).kind := rt.kind
  have d2 : ∀ d, (h2.edge d).dst = (h.edge d).dst := rt.dst
  have s2 : ∀ d, d ∉ h.O e → h2.edge d = h.edge d := fun d k => rt.miss d (fun q => k ((ml d).mp q))
  have s2e : ∀ d ∈ h.O e, (h2.edge d).src = some x := fun d k => rt.hit d ((ml d).mpr k)
  have n2 : h2.next = h.next := rt.next
  have sx : Un U V x := .inl ux
  have sse : Un U V e := .inr inB.se
  have be := inB.ne.isB
  have back : ∀ b, Un U V b → h.IsB b → ∀ d ∈ h2.O b, ∃ b', Un U V b' ∧ h.IsB b' ∧ d ∈ h.O b' := by
    intro b sb bb d md
    by_cases k : b = x
    · rw [k, O2x] at md; exact ⟨e, sse, be, md⟩
    · rw [O2 b k] at md; exact ⟨b, sb, bb, md⟩
  have notO : ∀ b, U b → h.IsB b → ∀ d ∈ h.O b, d ∉ h.O e := fun b ub bb d md q =>
    dis d (rU.memO b ub bb d md) (rV.memO e inB.se be d q)
  have reg : Reg h2 (Un U V) := by
    refine ⟨fun i k => by rw [n2]; exact r.lt i k, ?_, ?_, ?_, ?_, ?_, ?_, ?_, ?_, ?_, ?_, ?_⟩
    · intro b sb bb; rw [bi]; exact r.ins b sb ((isB b).mp bb)
    · intro b sb bb
      by_cases k : b = x
      · rw [k, b2x]; exact r.outs e sse be
      · rw [b2 b k]; exact r.outs b sb ((isB b).mp bb)
    · intro b sb bb d md
      rw [I2] at md; exact r.memI b sb ((isB b).mp bb) d md
    · intro b sb bb d md
      obtain ⟨b', p, q, m⟩ := back b sb ((isB b).mp bb) d md
      exact r.memO b' p q d m
    · intro b sb bb d md y ey
      rw [I2] at md
      have bb := (isB b).mp bb
      rw [s2 d (r.sepE b e sb bb sse be d md)] at ey
      obtain ⟨p, q⟩ := r.srcI b sb bb d md y ey
      exact ⟨p, (ng y).mpr q⟩
    · intro b sb bb d md y ey
      obtain ⟨b', p, q, m⟩ := back b sb ((isB b).mp bb) d md
      by_cases k : d ∈ h.O e
      · rw [s2e d k] at ey
        cases ey
        exact ⟨sx, (ng x).mpr nx⟩
      · rw [s2 d k] at ey
        obtain ⟨p, q⟩ := r.srcO b' p q d m y ey
        exact ⟨p, (ng y).mpr q⟩
    · intro b sb bb d md y ey
      obtain ⟨b', p, q, m⟩ := back b sb ((isB b).mp bb) d md
      rw [d2] at ey
      obtain ⟨p, q⟩ := r.dstO b' p q d m y ey
      exact ⟨p, (ng y).mpr q⟩
    · intro b sb nb d md
      rw [I2] at md; rw [d2]
      exact r.insDst b sb ((ng b).mp nb) d md
    · intro a b sa na sb nb
      rw [bi, bi]
      exact r.inj a b sa ((ng a).mp na) sb ((ng b).mp nb)
    · intro a b sa ba sb bb
      rw [bi]
      by_cases k : b = x
      · rw [k, b2x]; exact r.sep a e sa ((isB a).mp ba) sse be
      · rw [b2 b k]; exact r.sep a b sa ((isB a).mp ba) sb ((isB b).mp bb)
    · intro a b sa ba sb bb d md nd
      rw [I2] at md
      obtain ⟨b', p, q, m⟩ := back b sb ((isB b).mp bb) d nd
      exact r.sepE a b' sa ((isB a).mp ba) p q d md m
  have noX : ∀ d c, d ∈ h.O x → (h.edge d).dst ≠ some c := by
    intro d c md
    rw [td.only] at md
    rw [List.mem_singleton.mp md, td.hang]
    simp
  have wU : ∀ a ns y, U a → h.Ng a → Walk h a ns y → Walk h2 a (if y = x then ns ++ vis (h.blk e).nodes else ns) y := by
    intro a ns y ua na w
    induction w with
    | one =>
      by_cases k : a = x
      · rw [if_pos k]
        have : vis (h.blk a).nodes ++ vis (h.blk e).nodes = vis (h2.blk a).nodes := by rw [k, b2x, ← vis_append]
        rw [this]; exact .one
      · rw [if_neg k, ← b2 a k]; exact .one
    | @step ns b y d w md ey ih =>
      have nb : b ≠ x := fun k => noX d y (k ▸ md) ey
      rw [if_neg nb] at ih
      have md' : d ∈ h2.O b := by rw [O2 b nb]; exact md
      have := ih.step md' (by rw [d2]; exact ey)
      by_cases k : y = x
      · rw [if_pos k, List.append_assoc]
        have e' : vis (h.blk y).nodes ++ vis (h.blk e).nodes = vis (h2.blk y).nodes := by rw [k, b2x, ← vis_append]
        rw [e']; exact this
      · rw [if_neg k, ← b2 y k]; exact this
  have wV : ∀ a ns ms y, Walk h2 a (ns ++ vis (h.blk e).nodes) x → Walk h e ms y →
      Walk h2 a (ns ++ ms) (if y = e then x else y) := by
    intro a ns ms y w0 w
    induction w with
    | one => rw [if_pos rfl]; exact w0
    | @step ms b y d w md ey ih =>
      obtain ⟨vb, bb⟩ := w.inside rV inB.se be
      have ye : y ≠ e := fun k => fr.lead b vb bb d md (k ▸ ey)
      obtain ⟨vy, _⟩ := rV.dstO b vb bb d md y ey
      have yx : y ≠ x := fun k => dis x ux (k ▸ vy)
      have bx : b ≠ x := fun k => dis x ux (k ▸ vb)
      rw [if_neg ye, ← List.append_assoc, ← b2 y yx]
      refine ih.step (d := d) ?_ (by rw [d2]; exact ey)
      by_cases k : b = e
      · rw [if_pos k, O2x, ← k]; exact md
      · rw [if_neg k, O2 b bx]; exact md
  have start : ∀ a ns, U a → h.Ng a → PE h a ns s → Walk h2 a (ns ++ vis (h.blk e).nodes) x := by
    rintro a ns ua na ⟨y, w, ey, _⟩
    rw [td.src] at ey
    cases ey
    have := wU a ns x ua na w
    rwa [if_pos rfl] at this
  refine ⟨h2, jn, ⟨Nat.le_of_eq n2.symm, ?_, ?_, ⟨?_, ?_, ?_⟩, bk, bi, fun d _ => k2 d, ?_, ?_, ?_, ?_, ?_, ?_, ?_, ?_, ?_, ?_, ?_, ?_⟩⟩
  · intro i k q
    exact c i (by rw [n2] at k; exact k) ((isB i).mp q)
  · rw [Ext.same n2]; exact reg
  · rintro i ⟨_, nu, _⟩
    exact b2 i (fun k => nu (k ▸ ux))
  · rintro i ⟨_, _, nv⟩
    exact s2 i (fun k => nv (rV.memO e inB.se be i k))
  · intro i _; rw [em]
  · intro b sb bb d md
    exact rt.like d
  · intro b sb bb d md _
    exact d2 d
  · intro b sb bb
    by_cases k : b = x
    · refine .inr ⟨k ▸ ux, by rw [k]; exact O2x, ?_⟩
      intro d md
      rw [k, td.only] at md
      exact List.mem_singleton.mp md
    · exact .inl (O2 b k)
  · intro b _ _ _; exact I2 b
  · intro b sb bb d md y ey
    obtain ⟨b', p, q, m⟩ := back b sb bb d md
    rw [d2] at ey
    exact .inr ⟨b', p, q, m, ey⟩
  · intro b sb nb ne o d md
    by_cases k : b = x
    · rw [k, O2x] at md
      rw [s2e d md, k]
    · rw [O2 b k] at md
      have := o d md
      by_cases q : d ∈ h.O e
      · rw [fr.own d q] at this
        exact absurd (Option.some.inj this).symm ne
      · rw [s2 d q]; exact this
  · intro y vy ny
    by_cases k : y = e
    · refine ⟨x, fun d _ md => ⟨s2e d (k ▸ md), by rw [O2x, ← k]; exact md⟩, ?_⟩
      intro n m
      rw [b2x]
      exact List.mem_append_right _ (k ▸ m)
    · have yx : y ≠ x := fun q => dis x ux (q ▸ vy)
      refine ⟨y, fun d ey md => ⟨?_, by rw [O2 y yx]; exact md⟩, fun n m => by rw [b2 y yx]; exact m⟩
      rw [s2 d (fun q => k (by rw [fr.own d q] at ey; exact (Option.some.inj ey).symm))]
      exact ey
  · intro y d vy ny t _
    by_cases k : y = e
    · exact ⟨x, by rw [O2x, ← k]; exact t.only, s2e d (by rw [← k, t.only]; simp), by rw [d2]; exact t.hang⟩
    · have yx : y ≠ x := fun q => dis x ux (q ▸ vy)
      refine ⟨y, by rw [O2 y yx]; exact t.only, ?_, by rw [d2]; exact t.hang⟩
      have ey := t.src
      rw [s2 d (fun q => k (by rw [fr.own d q] at ey; exact (Option.some.inj ey).symm))]
      exact ey
  · rintro a ns d ua na ⟨y, w, ey, md⟩ nd
    obtain ⟨uy, by'⟩ := w.inside rU ua na.isB
    have nx : y ≠ x := by
      intro k
      rw [k, td.only] at md
      exact nd (List.mem_singleton.mp md)
    have w' := wU a ns y ua na w
    rw [if_neg nx] at w'
    refine ⟨y, w', ?_, by rw [O2 y nx]; exact md⟩
    rw [s2 d (notO y uy by' d md)]; exact ey
  · rintro a ns ua na ⟨y, w, wk, p⟩
    refine ⟨y, _, wU a w y ua na wk, ?_⟩
    split
    · exact p.trans (List.prefix_append _ _)
    · exact p
  · rintro a ns ms q d ua na pe rfl ⟨y, w, ey, md⟩
    have w' := wV a ns ms y (start a ns ua na pe) w
    obtain ⟨vy, by'⟩ := w.inside rV inB.se be
    refine ⟨_, w', ?_, ?_⟩
    · by_cases k : y = e
      · rw [if_pos k]; exact s2e d (k ▸ md)
      · rw [if_neg k]
        rw [s2 d (fun q => k (by rw [fr.own d q] at ey; exact (Option.some.inj ey).symm))]
        exact ey
    · by_cases k : y = e
      · rw [if_pos k, O2x, ← k]; exact md
      · rw [if_neg k, O2 y (fun q => dis x ux (q ▸ vy))]; exact md
  · rintro a ns ms q ua na pe rfl ⟨y, w, wk, p⟩
    exact ⟨_, _, wV a ns w y (start a ns ua na pe) wk, (List.prefix_append_right_inj ns).mpr p⟩

/-- The edges leaving `X` include exactly one of kind `seq`, the hanging edge `s`, which leaves a block of `S`. -/
structure Out (h : Heap) (S : Nat → Prop) (X s : Nat) : Prop where
  sX : S X
  bX : h.IsB X
  mem : s ∈ h.O X
  kind : (h.edge s).kind = .seq
  hang : (h.edge s).dst = none
  live : ∃ x, (h.edge s).src = some x ∧ s ∈ h.O x
  uniq : ∀ d ∈ h.O X, (h.edge d).kind = .seq → d = s

theorem Out.cho {h : Heap} {S : Nat → Prop} {X s : Nat} (o : Out h S X s) : Cho h X .seq {} = fun d => d = s := by
  funext d
  simp only [Cho, Sel, eq_iff_iff]
  constructor
  · rintro ⟨m, ⟨k, _⟩, _⟩; exact o.uniq d m k
  · rintro rfl; exact ⟨o.mem, ⟨o.kind, .inl rfl⟩, o.hang⟩

section link

variable {ω : Order} (fair : ω.Fair)

include fair

theorem Out.unwrap {h : Heap} {S : Nat → Prop} {X s : Nat} (o : Out h S X s) (site : Nat) : h.unwrapOut ω site X = (h.edge s).src := by
  obtain ⟨j, ej⟩ := pick_isSome fair (site := site) (p := fun e => decide (e.kind = EK.seq)) (m := (h.blk X).outs) o.mem (by simpa using o.kind)
  obtain ⟨mj, kj⟩ := pick_some fair ej
  rw [Heap.unwrapOut, Heap.outSeq, ej]
  show (h.edge j).src = _
  rw [o.uniq j mj (by simpa using kj)]

/-- `linkSep` adds edges. -/
theorem linkSep_em {h : Heap} {S : Nat → Prop} (c : Clean h) (r : Reg h S) {X B e : Nat} (sX : S X) (bX : h.IsB X)
    (inB : In h S B e) {fk tk : EK} {ft tt : Tag} (nc : ft.cut = false) (q : Option Nat) :
    ∃ h', h.linkSep ω X fk ft tk tt B false q = some h' ∧ EM h h' S e (Cho h X fk ft) ∧
      ((∃ d ∈ h.O X, Sel h fk ft d) → ∃ i ∈ h'.I e, (h'.edge i).kind = tk) := by
  obtain ⟨h', ds, eq, mem, l, k⟩ := linkSep_lk fair c r sX bX inB (fk := fk) (tk := tk) (tt := tt) nc q
  exact ⟨h', eq, ⟨⟨ds, fun d m => ⟨X, sX, bX, (mem d).mp m⟩, l⟩, fun d m => m.2.2, fun d m => ⟨X, sX, bX, m.1⟩⟩, k⟩

/-- The conditions under which `link` adds edges. -/
def Apart (h : Heap) (X : Nat) (fk : EK) (B : Nat) (fl : Heap.Flag) : Prop :=
  fl.join = false ∧ (fk ≠ .seq ∨ fl.sep = true ∨ h.onlySeqIn B = false ∨
    ∃ x s S, Out h S X s ∧ (h.edge s).src = some x ∧ ∀ d, h.O x ≠ [d])

theorem link_em {h : Heap} {S : Nat → Prop} (c : Clean h) (r : Reg h S) {X B e : Nat} (sX : S X) (bX : h.IsB X)
    (inB : In h S B e) {fk tk : EK} {ft tt : Tag} (nc : ft.cut = false) {fl : Heap.Flag} (ov : fl.over = false)
    (ap : Apart h X fk B fl) :
    ∃ h', h.link ω X fk ft tk tt B fl = some h' ∧ EM h h' S e (Cho h X fk ft) ∧
      ((∃ d ∈ h.O X, Sel h fk ft d) → ∃ i ∈ h'.I e, (h'.edge i).kind = tk) := by
  obtain ⟨h', eq, k⟩ := linkSep_em fair c r sX bX inB (fk := fk) (tk := tk) (tt := tt) nc (h.unwrapOut ω 6 X)
  refine ⟨h', ?_, k⟩
  obtain ⟨j, ap⟩ := ap
  rw [← eq]
  rw [Heap.link, ov]
  by_cases q : fl.join = true ∨ fk = EK.seq ∧ fl.sep = false ∧ h.onlySeqIn B = true
  · rw [if_pos q]
    rcases q with q | ⟨q1, q2, q3⟩
    · rw [j] at q; cases q
    · rcases ap with ap | ap | ap | ⟨x, s, S', o, es, no⟩
      · exact absurd q1 ap
      · rw [q2] at ap; cases ap
      · rw [q3] at ap; cases ap
      · have f1 : h.onlySeqOut X = some false := by
          rw [Heap.onlySeqOut]
          split
          · next d k =>
            have : s ∈ [d] := by rw [← k]; exact o.mem
            rw [← List.mem_singleton.mp this, es]
            show some (match h.O x with | [c] => _ | _ => false) = some false
            split
            · next c k' => exact absurd k' (no c)
            · rfl
          · rfl
        have f2 : h.onlySeqOut x = some false := by
          rw [Heap.onlySeqOut]
          split
          · next d k => exact absurd k (no d)
          · rfl
        rw [f1, Option.bind_some, if_neg (by simp [j]), o.unwrap fair, es]
        dsimp only
        split
        · rw [f2, Option.bind_some, if_neg (by simp)]
        · rfl
  · rw [if_neg q]

/-- Linking the end of a fragment to the beginning of another one, whichever way `link` chooses. -/
theorem link_ls {h : Heap} {U V : Nat → Prop} (c : Clean h) (rU : Reg h U) (rV : Reg h V) (dis : ∀ i, U i → ¬ V i)
    {X B e s : Nat} (o : Out h U X s) (inB : In h V B e) (fr : Fresh h V e) (tk : EK) (tt : Tag) :
    ∃ h', h.link ω X .seq {} tk tt B {} = some h' ∧ LS h h' U V e (fun d => d = s) := by
  have r := rU.union rV dis
  have inB' : In h (Un U V) B e := ⟨.inr inB.sB, inB.bB, .inr inB.se, inB.ne, inB.ins, inB.seq⟩
  obtain ⟨h', eq, em, _⟩ := linkSep_em fair c r (.inl o.sX) o.bX inB' (fk := .seq) (ft := {}) (tk := tk) (tt := tt) rfl (h.unwrapOut ω 6 X)
  have apart : ∃ h', h.linkSep ω X .seq {} tk tt B false (h.unwrapOut ω 6 X) = some h' ∧ LS h h' U V e (fun d => d = s) :=
    ⟨h', eq, by rw [← o.cho]; exact em.ls c r inB.se inB.ne⟩
  obtain ⟨x, es, mx⟩ := o.live
  obtain ⟨ux, nx⟩ := rU.srcO X o.sX o.bX s o.mem x es
  have tidy : ∀ d, h.O x = [d] → Tidy h x s := by
    intro d k
    rw [k] at mx
    rw [← List.mem_singleton.mp mx] at k
    exact ⟨k, es, o.hang⟩
  have osx : ∀ d, h.O x = [d] → Out h U x s := by
    intro d k
    have t := tidy d k
    refine ⟨ux, nx.isB, mx, o.kind, o.hang, ⟨x, es, mx⟩, ?_⟩
    intro d' m _
    rw [t.only] at m
    exact List.mem_singleton.mp m
  rw [Heap.link]
  by_cases q : ({} : Heap.Flag).join = true ∨ EK.seq = EK.seq ∧ ({} : Heap.Flag).sep = false ∧ h.onlySeqIn B = true
  · rw [if_pos q]
    have f1 : ∃ b, h.onlySeqOut X = some b ∧ (b = true → ∃ d, h.O x = [d]) := by
      rw [Heap.onlySeqOut]
      split
      · next d k =>
        have : s ∈ [d] := by rw [← k]; exact o.mem
        rw [← List.mem_singleton.mp this, es]
        refine ⟨match h.O x with | [c] => decide ((h.edge c).kind = .seq) | _ => false, rfl, ?_⟩
        split
        · next c k' => intro _; exact ⟨c, k'⟩
        · intro k; cases k
      · exact ⟨false, rfl, by simp⟩
    obtain ⟨b, eb, hb⟩ := f1
    rw [eb, Option.bind_some]
    split
    · next k =>
      obtain ⟨d, ed⟩ := hb (k.resolve_right (by simp))
      exact join_ls fair c rU rV dis ux nx (tidy d ed) inB fr (by rw [o.unwrap fair, es])
    · rw [o.unwrap fair, es]
      rw [o.unwrap fair, es] at apart
      dsimp only
      split
      · have f2 : ∃ b, h.onlySeqOut x = some b ∧ (b = true → ∃ d, h.O x = [d]) := by
          rw [Heap.onlySeqOut]
          split
          · next d k =>
            have : s ∈ [d] := by rw [← k]; exact mx
            rw [← List.mem_singleton.mp this, es]
            exact ⟨_, rfl, fun _ => ⟨d, k⟩⟩
          · exact ⟨false, rfl, by simp⟩
        obtain ⟨b2, eb2, hb2⟩ := f2
        rw [eb2, Option.bind_some]
        split
        · next k =>
          obtain ⟨d, ed⟩ := hb2 k.1
          exact join_ls fair c rU rV dis ux nx (tidy d ed) inB fr (by rw [(osx d ed).unwrap fair, es])
        · exact apart
      · exact apart
  · rw [if_neg q]
    exact apart

/-- `LF_FORCE_JOIN`. -/
theorem link_force {h : Heap} {U V : Nat → Prop} (c : Clean h) (rU : Reg h U) (rV : Reg h V) (dis : ∀ i, U i → ¬ V i)
    {X B e s x : Nat} (o : Out h U X s) (td : Tidy h x s) (inB : In h V B e) (fr : Fresh h V e) (tk : EK) (tt : Tag) :
    ∃ h', h.link ω X .seq {} tk tt B { join := true } = some h' ∧ LS h h' U V e (fun d => d = s) := by
  obtain ⟨ux, nx⟩ := rU.srcO X o.sX o.bX s o.mem x td.src
  rw [Heap.link, if_pos (.inl rfl)]
  have f1 : ∃ b, h.onlySeqOut X = some b := by
    rw [Heap.onlySeqOut]
    split
    · next d k =>
      have : s ∈ [d] := by rw [← k]; exact o.mem
      rw [← List.mem_singleton.mp this, td.src]
      exact ⟨_, rfl⟩
    · exact ⟨false, rfl⟩
  obtain ⟨b, eb⟩ := f1
  rw [eb, Option.bind_some, if_pos (.inr rfl)]
  exact join_ls fair c rU rV dis ux nx td inB fr (by rw [o.unwrap fair, td.src])

/-- Nothing is chosen. -/
theorem linkEdges_none {h : Heap} {fk tk : EK} {ft tt : Tag} {to : Nat} {over : Bool} (l : List Nat) (no : ∀ d ∈ l, ¬ Sel h fk ft d) :
    h.linkEdges ω fk ft tk tt to over l = h := by
  induction l with
  | nil => rfl
  | cons d l ih =>
    rw [Heap.linkEdges]
    have : ¬ (decide ((h.edge d).kind = fk) && (ft.isNone || (h.edge d).tag.meets ft)) = true := by
      have := no d (by simp)
      simpa [Sel] using this
    rw [if_neg this]
    exact ih (fun x m => no x (by simp [m]))

theorem link_none {h : Heap} {U V : Nat → Prop} (rU : Reg h U) (rV : Reg h V) (dis : ∀ i, U i → ¬ V i)
    {X B e : Nat} (uX : U X) (bX : h.IsB X) (inB : In h V B e) {fk tk : EK} {ft tt : Tag} (nk : fk ≠ .seq)
    (no : ∀ d ∈ h.O X, ¬ Sel h fk ft d) : h.link ω X fk ft tk tt B {} = some h := by
  rw [Heap.link, if_neg (by simp [nk]), Heap.linkSep, unwrapIn_eq fair rV inB]
  show some ((h.linkEdges ω fk ft tk tt e false (h.range ω 8 (h.blk X).outs)).spreadCut ω X e (h.unwrapOut ω 6 X)) = some _
  rw [linkEdges_none fair _ (fun d m => no d ((mem_range fair).mp m)), Heap.spreadCut]
  have : h.isOutCut ω 5 X e = false := by
    rw [Heap.isOutCut]
    split
    · next d k =>
      obtain ⟨md, _⟩ := pick_some fair k
      refine decide_eq_false (fun q => ?_)
      obtain ⟨p, _⟩ := rU.dstO X uX bX d md e q
      exact dis e p inB.se
    · rfl
  rw [this]
  rfl

end link

/-- The way in stays. -/
theorem In.em {h h' : Heap} {S : Nat → Prop} {B e : Nat} {C : Nat → Prop} (i : In h S B e) (m : EM h h' S e C) :
    In h' (Ext S h h') B e := by
  obtain ⟨_, _, l⟩ := m.ex
  obtain ⟨d, md, k⟩ := i.seq
  exact ⟨.inl i.sB, (m.isB B).mpr i.bB, .inl i.se, (m.ng e).mpr i.ne, by rw [m.blk]; exact i.ins,
    d, l.I d md, by rw [l.kindI d md]; exact k⟩

/-- A block with an incoming edge of another kind is not joined. -/
theorem not_only {h : Heap} {S : Nat → Prop} {B e : Nat} (i : In h S B e) {k : EK} (nk : k ≠ .seq)
    (ex : ∃ d ∈ h.I e, (h.edge d).kind = k) : h.onlySeqIn B = false := by
  obtain ⟨a, ma, ka⟩ := i.seq
  obtain ⟨b, mb, kb⟩ := ex
  rw [Heap.onlySeqIn, i.ins]
  split
  · next d eq =>
    have ma' : a ∈ [d] := by rw [← eq]; exact ma
    have mb' : b ∈ [d] := by rw [← eq]; exact mb
    rw [List.mem_singleton.mp ma'] at ka
    rw [List.mem_singleton.mp mb', ka] at kb
    exact absurd kb.symm nk
  · rfl

section link2

variable {ω : Order} (fair : ω.Fair)

include fair

/-- Jumps are linked first, then the rest (as in ctrlflow.go 373-374 and elsewhere). -/
theorem link2_ls {h : Heap} {U V : Nat → Prop} (c : Clean h) (rU : Reg h U) (rV : Reg h V) (dis : ∀ i, U i → ¬ V i)
    {X B e : Nat} (uX : U X) (bX : h.IsB X) (inB : In h V B e) (fr : Fresh h V e) (ft tt : Tag) (nc : ft.cut = false)
    (sep : Bool) (o : sep = true ∨ (∃ s, Out h U X s) ∨ ∃ d ∈ h.O X, Sel h .jmp ft d) :
    ∃ h1 h', h.link ω X .jmp ft .jmp {} B {} = some h1 ∧ h1.link ω X .seq {} .seq tt B { sep := sep } = some h' ∧
      LS h h' U V e (fun d => Cho h X .jmp ft d ∨ Cho h X .seq {} d) := by
  have r := rU.union rV dis
  have inB' : In h (Un U V) B e := ⟨.inr inB.sB, inB.bB, .inr inB.se, inB.ne, inB.ins, inB.seq⟩
  by_cases q : ∃ d ∈ h.O X, Sel h .jmp ft d
  · obtain ⟨h1, e1, m1, k1⟩ := link_em fair c r (.inl uX) bX inB' (fk := .jmp) (tk := .jmp) (tt := {}) nc (fl := {}) rfl ⟨rfl, .inl (by simp)⟩
    have i1 := inB'.em m1
    have ns := not_only i1 (k := .jmp) (by simp) (k1 q)
    obtain ⟨h', e', m', _⟩ := link_em fair (m1.clean c) (m1.reg r inB'.se inB'.ne c) (.inl (.inl uX)) ((m1.isB X).mpr bX) i1 (fk := .seq) (ft := {})
      (tk := .seq) (tt := tt) rfl (fl := { sep := sep }) rfl ⟨rfl, .inr (.inr (.inl ns))⟩
    refine ⟨h1, h', e1, e', ?_⟩
    have := (m1.trans r inB'.se inB'.ne m' c).ls c r inB.se inB.ne
    have eC : (fun d => Cho h X .jmp ft d ∨ Cho h1 X .seq {} d) = fun d => Cho h X .jmp ft d ∨ Cho h X .seq {} d := by
      funext d
      simp only [eq_iff_iff]
      refine or_congr Iff.rfl ?_
      obtain ⟨_, _, l⟩ := m1.ex
      simp only [Cho, Sel, m1.O r inB'.se inB'.ne (.inl uX) bX]
      refine and_congr_right (fun md => ?_)
      have lt := r.lt d (r.memO X (.inl uX) bX d md)
      rw [l.kind d lt]
      have key : (h.edge d).kind = .seq → (h1.edge d).dst = (h.edge d).dst := fun k =>
        l.miss d lt (fun q => by rw [q.2.1.1] at k; cases k)
      exact ⟨fun ⟨k, z⟩ => ⟨⟨k.1, .inl rfl⟩, by rw [← key k.1]; exact z⟩, fun ⟨k, z⟩ => ⟨⟨k.1, .inl rfl⟩, by rw [key k.1]; exact z⟩⟩
    rw [← eC]; exact this
  · have no : ∀ d ∈ h.O X, ¬ Sel h .jmp ft d := fun d m k => q ⟨d, m, k⟩
    have e1 := link_none fair rU rV dis uX bX inB (tk := .jmp) (tt := ({} : Tag)) (ft := ft) (fk := .jmp) (by simp) no
    have eC : (fun d => Cho h X .jmp ft d ∨ Cho h X .seq {} d) = Cho h X .seq {} := by
      funext d
      simp only [eq_iff_iff]
      exact ⟨fun k => k.resolve_left (fun k => no d k.1 k.2.1), .inr⟩
    rw [eC]
    cases sep with
    | false =>
      obtain ⟨s, o⟩ := (o.resolve_left (by simp)).resolve_right q
      obtain ⟨h', e', l⟩ := link_ls fair c rU rV dis o inB fr .seq tt
      exact ⟨h, h', e1, e', by rw [o.cho]; exact l⟩
    | true =>
      obtain ⟨h', e', m, _⟩ := link_em fair c r (.inl uX) bX inB' (fk := .seq) (ft := {}) (tk := .seq) (tt := tt) rfl (fl := { sep := true }) rfl ⟨rfl, .inr (.inl rfl)⟩
      exact ⟨h, h', e1, e', m.ls c r inB.se inB.ne⟩

/-- Jumps are linked after the rest (as in ctrlflow.go 299-303 and elsewhere), from a block that has more than one edge. -/
theorem link2r_em {h : Heap} {U V : Nat → Prop} (c : Clean h) (rU : Reg h U) (rV : Reg h V) (dis : ∀ i, U i → ¬ V i)
    {X B e s x : Nat} (o : Out h U X s) (ex : (h.edge s).src = some x) (nt : ∀ d, h.O x ≠ [d]) (inB : In h V B e)
    (ft tt tt' : Tag) (nc : ft.cut = false) :
    ∃ h1 h', h.link ω X .seq {} .seq tt B {} = some h1 ∧ h1.link ω X .jmp ft .seq tt' B {} = some h' ∧
      EM h h' (Un U V) e (fun d => d = s ∨ Cho h X .jmp ft d) := by
  have r := rU.union rV dis
  have inB' : In h (Un U V) B e := ⟨.inr inB.sB, inB.bB, .inr inB.se, inB.ne, inB.ins, inB.seq⟩
  obtain ⟨h1, e1, m1, k1⟩ := link_em fair c r (.inl o.sX) o.bX inB' (fk := .seq) (ft := {}) (tk := .seq) (tt := tt) rfl (fl := {}) rfl
    ⟨rfl, .inr (.inr (.inr ⟨x, s, U, o, ex, nt⟩))⟩
  have i1 := inB'.em m1
  obtain ⟨h', e', m', _⟩ := link_em fair (m1.clean c) (m1.reg r inB'.se inB'.ne c) (.inl (.inl o.sX)) ((m1.isB X).mpr o.bX) i1 (fk := .jmp)
    (tk := .seq) (tt := tt') nc (fl := {}) rfl ⟨rfl, .inl (by simp)⟩
  refine ⟨h1, h', e1, e', ?_⟩
  have := m1.trans r inB'.se inB'.ne m' c
  have eC : (fun d => Cho h X .seq {} d ∨ Cho h1 X .jmp ft d) = fun d => d = s ∨ Cho h X .jmp ft d := by
    funext d
    rw [o.cho]
    simp only [eq_iff_iff]
    refine or_congr Iff.rfl ?_
    obtain ⟨_, _, l⟩ := m1.ex
    simp only [Cho, Sel, m1.O r inB'.se inB'.ne (.inl o.sX) o.bX]
    refine and_congr_right (fun md => ?_)
    have lt := r.lt d (r.memO X (.inl o.sX) o.bX d md)
    rw [l.kind d lt, Tag.meets_like (m1.like r inB'.se inB'.ne (.inl o.sX) o.bX md) nc]
    have key : (h.edge d).kind = .jmp → (h1.edge d).dst = (h.edge d).dst := fun k =>
      l.miss d lt (fun q => by rw [q.2.1.1] at k; cases k)
    exact ⟨fun ⟨k, z⟩ => ⟨k, by rw [← key k.1]; exact z⟩, fun ⟨k, z⟩ => ⟨k, by rw [key k.1]; exact z⟩⟩
  rw [← eC]; exact this

end link2

end Mole.Cfg
