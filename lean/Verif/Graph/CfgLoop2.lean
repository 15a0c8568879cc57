import Verif.Graph.CfgClose

/-! Loops: steps that change a part of the heap that has a second way in. -/

namespace Mole.Cfg

/-- A step that links the hanging edges `C` (or marks the linked edges `C`) of the part `S`, which is entered at `a` and has a loop
that begins at `t`. -/
structure Mv (h h' : Heap) (S S' : Nat → Prop) (C : Nat → Prop) (a t : Nat) : Prop where
  next : h.next ≤ h'.next
  clean : Clean h'
  sub : ∀ i, S i → S' i
  isB : ∀ b, h.IsB b → h'.IsB b
  ng : ∀ b, h.Ng b → h'.Ng b
  ent : ∀ ins, Ent h S ins a → Ent h' S' ins a
  inn : ∀ A, In h S A t → In h' S' A t
  inI : ∀ i, S t → h.Ng t → i ∈ h.I t → i ∈ h'.I t ∧ (h'.edge i).kind = (h.edge i).kind
  pl : ∀ u b ns, S u → h.Ng u → PL h u ns b → PL h' u ns b
  pre : ∀ u ns, S u → h.Ng u → Pre h u ns → Pre h' u ns
  pe : ∀ u d ns, S u → h.Ng u → PE h u ns d → ¬ C d → PE h' u ns d
  O : ∀ X d, S X → h.IsB X → d ∈ h.O X → ¬ C d →
    d ∈ h'.O X ∧ (h'.edge d).kind = (h.edge d).kind ∧ (h'.edge d).dst = (h.edge d).dst ∧ (h'.edge d).tag.Like (h.edge d).tag
  frame : ∀ T : Nat → Prop, (∀ i, T i → i < h.next) → (∀ i, T i → ¬ S' i) → Agree h h' T

/-- A part of the heap with a loop: entered at `a`; the loop begins at `t`, which is linked to through `L` and has the incoming
jump `d`. -/
structure Rn (h : Heap) (S : Nat → Prop) (ins : List Nat) (a L t d : Nat) : Prop where
  clean : Clean h
  ent : Ent h S ins a
  inn : In h S L t
  mem : d ∈ h.I t
  kind : (h.edge d).kind = .jmp
  ne : a ≠ t

section

variable {h h' h'' : Heap} {S S' S'' : Nat → Prop} {C C' : Nat → Prop} {a t : Nat}

theorem Mv.rn (m : Mv h h' S S' C a t) {ins : List Nat} {L d : Nat} (r : Rn h S ins a L t d) : Rn h' S' ins a L t d :=
  let i := m.inI d r.inn.se r.inn.ne r.mem
  ⟨m.clean, m.ent ins r.ent, m.inn L r.inn, i.1, by rw [i.2]; exact r.kind, r.ne⟩

theorem Mv.reach (m : Mv h h' S S' C a t) {u X : Nat} {k : Kd} {ns : List Nat} (su : S u) (nu : h.Ng u) (sX : S X) (bX : h.IsB X)
    (nq : ∀ x, k = .ex x → ∀ d ∈ h.O X, (h.edge d).dst = none → x.ok (h.edge d) → ¬ C d) (q : Reach h u X k ns) : Reach h' u X k ns := by
  cases k with
  | pre => exact m.pre u ns su nu q
  | ex x =>
    obtain ⟨d, md, k1, k2, k3⟩ := q
    have n := nq x rfl d md k1 k2
    obtain ⟨p1, p2, p3, p4⟩ := m.O X d sX bX md n
    exact ⟨d, p1, by rw [p3]; exact k1, Ex.ok_like p2 p4 k2, m.pe u d ns su nu k3 n⟩

theorem EM.mv {to : Nat} (m : EM h h' S to C) (c : Clean h) (r : Reg h S) (sto : S to) (nto : h.Ng to) (ne : a ≠ to) :
    Mv h h' S (Ext S h h') C a t := by
  refine ⟨m.next, m.clean c, fun i k => .inl k, fun b k => (m.isB b).mpr k, fun b k => (m.ng b).mpr k, fun ins f => m.ent c r sto nto f ne,
    fun A i => m.inn r sto nto i, fun i st nt mi => m.inI r sto nto st nt mi, fun u b ns su nu p => m.pl r sto nto su nu.isB p,
    fun u ns su nu p => m.pre r sto nto su nu.isB p, fun u d ns su nu p _ => m.pe r sto nto su nu.isB p, ?_, ?_⟩
  · intro X d sX bX md n
    have ld := r.lt d (r.memO X sX bX d md)
    exact ⟨by rw [m.O r sto nto sX bX]; exact md, m.kind ld, m.miss ld n, m.like r sto nto sX bX md⟩
  · exact fun T lt dS => m.frame c r sto nto lt (fun i k q => dS i k (.inl q))

theorem LS.mv {V : Nat → Prop} {to : Nat} {Q : Nat → Prop} (l : LS h h' S V to Q) (c : Clean h) (rU : Reg h S) (rV : Reg h V) (vto : V to)
    (dis : ∀ i, S i → ¬ V i) (hang : ∀ d, Q d → (h.edge d).dst = none) : Mv h h' S (Ext (Un S V) h h') Q a t := by
  have ne : ∀ b, S b → b ≠ to := fun b k e => dis b k (e ▸ vto)
  have eO : ∀ X d, S X → h.IsB X → d ∈ h.O X → ¬ Q d → d ∈ h'.O X := by
    intro X d sX bX md n
    rcases l.outs X (.inl sX) bX with k | ⟨_, _, k⟩
    · rw [k]; exact md
    · exact absurd (k d md) n
  refine ⟨l.next, l.clean, fun i k => .inl (.inl k), fun b k => (l.isB b).mpr k, fun b k => (l.ng b).mpr k,
    fun ins f => l.ent c rV vto dis f, fun A i => l.inU rU (ne _ i.se) i, ?_, ?_, fun u ns su nu p => l.tAp u ns su nu p,
    fun u d ns su nu p n => l.tA u ns d su nu p n, ?_, ?_⟩
  · intro i st nt mi
    exact ⟨by rw [l.ins t (.inl st) nt (ne t st)]; exact mi, l.kind i (rU.lt i (rU.memI t st nt.isB i mi))⟩
  · rintro u b ns su nu ⟨d, p, e⟩
    have n : ¬ Q d := fun q => by rw [hang d q] at e; cases e
    refine ⟨d, l.tA u ns d su nu p n, ?_⟩
    obtain ⟨x, w, _, md⟩ := p
    obtain ⟨sx, bx⟩ := w.inside rU su nu.isB
    rw [l.dst x (.inl sx) bx d md n]; exact e
  · intro X d sX bX md n
    exact ⟨eO X d sX bX md n, l.kind d (rU.lt d (rU.memO X sX bX d md)), l.dst X (.inl sX) bX d md n, l.like X (.inl sX) bX d md⟩
  · exact fun T lt dS => l.frame lt (fun i k q => dS i k (.inl (.inl q))) (fun i k q => dS i k (.inl (.inr q)))

theorem Mk.mv {s X : Nat} (m : Mk h h' s) (c : Clean h) (sX : S X) (bX : h.IsB X) (ms : s ∈ h.O X) (ss : S s) (r : Reg h S) : Mv h h' S S (fun d => d = s) a t := by
  have ne : ∀ b, S b → h.IsB b → ∀ d ∈ h.I b, d ≠ s := fun b sb bb d md q => r.sepE b X sb bb sX bX d md (q ▸ ms)
  refine ⟨by rw [m.next]; exact Nat.le_refl _, m.clean c, fun i k => k, fun b k => (m.isB b).mpr k, fun b k => (m.ng b).mpr k,
    fun ins f => m.ent sX bX ms f, ?_, ?_, fun u b ns _ _ p => m.pl p, fun u ns _ _ p => m.pre p, fun u d ns _ _ p _ => m.pe p, ?_, ?_⟩
  · intro A j
    obtain ⟨d, md, kd⟩ := j.seq
    exact ⟨j.sB, (m.isB A).mpr j.bB, j.se, (m.ng t).mpr j.ne, by rw [m.blk]; exact j.ins, d, by rw [m.I]; exact md,
      by rw [m.edge d (ne t j.se j.ne.isB d md)]; exact kd⟩
  · intro i st nt mi
    exact ⟨by rw [m.I]; exact mi, by rw [m.edge i (ne t st nt.isB i mi)]⟩
  · intro X d _ _ md n
    rw [m.O, m.edge d n]
    exact ⟨md, rfl, rfl, .refl _⟩
  · exact fun T _ dS => m.frame (fun q => dS s q ss)

theorem Mv.trans (m : Mv h h' S S' C a t) (n : Mv h' h'' S' S'' C' a t) : Mv h h'' S S'' (fun d => C d ∨ C' d) a t := by
  refine ⟨Nat.le_trans m.next n.next, n.clean, fun i k => n.sub i (m.sub i k), fun b k => n.isB b (m.isB b k), fun b k => n.ng b (m.ng b k), fun ins e => n.ent ins (m.ent ins e),
    fun A i => n.inn A (m.inn A i), ?_, fun u b ns su nu p => n.pl u b ns (m.sub u su) (m.ng u nu) (m.pl u b ns su nu p),
    fun u ns su nu p => n.pre u ns (m.sub u su) (m.ng u nu) (m.pre u ns su nu p),
    fun u d ns su nu p k => n.pe u d ns (m.sub u su) (m.ng u nu) (m.pe u d ns su nu p (fun q => k (.inl q))) (fun q => k (.inr q)), ?_, ?_⟩
  · intro i st nt mi
    obtain ⟨k1, k2⟩ := m.inI i st nt mi
    obtain ⟨k3, k4⟩ := n.inI i (m.sub t st) (m.ng t nt) k1
    exact ⟨k3, by rw [k4, k2]⟩
  · intro X d sX bX md k
    obtain ⟨p1, p2, p3, p4⟩ := m.O X d sX bX md (fun q => k (.inl q))
    obtain ⟨q1, q2, q3, q4⟩ := n.O X d (m.sub X sX) (m.isB X bX) p1 (fun q => k (.inr q))
    exact ⟨q1, by rw [q2, p2], by rw [q3, p3], q4.trans p4⟩
  · intro T lt dS
    exact (m.frame T lt (fun i k q => dS i k (n.sub i q))).trans (n.frame T (fun i k => Nat.lt_of_lt_of_le (lt i k) m.next) dS)

theorem Mv.mono (m : Mv h h' S S' C a t) (k : ∀ d, C d → C' d) : Mv h h' S S' C' a t :=
  { m with pe := fun u d ns su nu p n => m.pe u d ns su nu p (fun q => n (k d q)), O := fun X d sX bX md n => m.O X d sX bX md (fun q => n (k d q)) }

/-- Marking every jump taken for true. -/
theorem markJmpLoop_mv {tg : Tag} {X : Nat} : ∀ {ds : List Nat} {h : Heap}, Clean h → Reg h S → S X → h.IsB X → (∀ d ∈ ds, d ∈ h.O X) →
    (∀ d ∈ ds, (h.edge d).kind = .jmp → (h.edge d).tag.meets tg = true → (h.edge d).dst ≠ none) →
    Mv h (h.markJmpLoop tg ds) S S (fun d => (h.edge d).dst ≠ none) a t
  | [], h, c, r, sX, bX, _, _ => by
    refine ⟨Nat.le_refl _, c, fun i k => k, fun b k => k, fun b k => k, fun ins k => k, fun A k => k, fun i _ _ k => ⟨k, rfl⟩, fun u b ns _ _ p => p, fun u ns _ _ p => p,
      fun u d ns _ _ p _ => p, fun X d _ _ md _ => ⟨md, rfl, rfl, .refl _⟩, fun T _ _ => .refl _ _⟩
  | d :: ds, h, c, r, sX, bX, mem, lk => by
    rw [Heap.markJmpLoop]
    split
    · next k =>
      have k : (h.edge d).kind = .jmp ∧ (h.edge d).tag.meets tg = true := by simpa using k
      have md := mem d (by simp)
      have ld := lk d (by simp) k.1 k.2
      have mk : Mk h (h.setEdge d { h.edge d with tag := (h.edge d).tag.withLoop }) d := Mk.set h d (h.edge d).kind _
      have m1 : Mv h _ S S (fun c => c = d) a t := mk.mv c sX bX md (r.memO X sX bX d md) r
      refine Mv.mono (m1.trans (markJmpLoop_mv (ds := ds) (tg := tg) (mk.clean c) (mk.reg r) sX ((mk.isB X).mpr bX) (fun e m => by rw [mk.O]; exact mem e (by simp [m])) ?_)) ?_
      · intro e m k1 k2
        rw [mk.dsts]
        by_cases q : e = d
        · rw [q]; exact ld
        · rw [mk.edge e q] at k1 k2
          exact lk e (by simp [m]) k1 k2
      · rintro e (rfl | k)
        · exact ld
        · rw [mk.dsts] at k; exact k
    · exact markJmpLoop_mv c r sX bX (fun e m => mem e (by simp [m])) (fun e m => lk e (by simp [m]))

/-- `link(X, EK_SEQ, ET_NONE, EK_SEQ, ET_NONE, L, LF_NONE)` back to the beginning of a loop, then the mark on that edge. -/
theorem Rn.back {ω : Order} (fair : ω.Fair) {ins : List Nat} {L d X s : Nat} (r : Rn h S ins a L t d) (o : Out h S X s) :
    ∃ h1 h2 S', h.link ω X .seq {} .seq {} L {} = some h1 ∧ h1.markLoop ω X = some h2 ∧ Mv h h2 S S' (fun d => d = s) a t ∧ (h2.edge s).dst = some t ∧ (h2.edge s).kind = .jmp ∧
      s ∈ h2.O X ∧ (∀ i, S' i → S i ∨ h.next ≤ i) ∧ ∀ u ns, S u → h.Ng u → PE h u ns s → PL h2 u ns t := by
  have reg := r.ent.reg
  obtain ⟨h1, q1, m, _⟩ := link_em fair r.clean reg o.sX o.bX r.inn (fk := .seq) (ft := {}) (tk := .seq) (tt := {}) rfl (fl := {}) rfl
    ⟨rfl, .inr (.inr (.inl (not_only r.inn (k := .jmp) (by simp) ⟨d, r.mem, r.kind⟩)))⟩
  rw [o.cho] at m
  have lt := fun d (k : d ∈ h.O X) => reg.lt d (reg.memO X o.sX o.bX d k)
  have OX : h1.O X = h.O X := m.O reg r.inn.se r.inn.ne o.sX o.bX
  have ks : (h1.edge s).kind = .seq := by rw [m.kind (lt s o.mem)]; exact o.kind
  have ms : s ∈ h1.O X := by rw [OX]; exact o.mem
  obtain ⟨y, ey⟩ := pick_isSome fair (site := 11) (p := fun e => decide (e.kind = EK.seq)) (m := (h1.blk X).outs) ms (by simpa using ks)
  obtain ⟨my, ky⟩ := pick_some fair ey
  have ys : y = s := by
    have my : y ∈ h1.O X := my
    rw [OX] at my
    have ky : (h1.edge y).kind = .seq := by simpa using ky
    rw [m.kind (lt y my)] at ky
    exact o.uniq y my ky
  rw [ys] at ey
  let h2 := h1.setEdge s { h1.edge s with kind := .jmp, tag := (h1.edge s).tag.withLoop }
  have q2 : h1.markLoop ω X = some h2 := by
    rw [Heap.markLoop, Heap.outSeq, ey]; rfl
  have mk : Mk h1 h2 s := Mk.set h1 s .jmp _
  have c1 := m.clean r.clean
  have r1 := m.reg reg r.inn.se r.inn.ne r.clean
  have mv1 := m.mv (t := t) r.clean reg r.inn.se r.inn.ne r.ne
  have mv2 : Mv h1 h2 (Ext S h h1) (Ext S h h1) (fun d => d = s) a t := mk.mv c1 (.inl o.sX) ((m.isB X).mpr o.bX) ms (.inl (reg.memO X o.sX o.bX s o.mem)) r1
  have mv := mv1.trans mv2
  simp only [or_self] at mv
  refine ⟨h1, h2, _, q1, q2, mv, by rw [mk.dsts]; exact m.hit reg r.inn.se r.inn.ne rfl, ?_, by rw [mk.O]; exact ms, ?_, ?_⟩
  · show Edge.kind (upd _ _ _ s) = _
    rw [upd_self]
  · rintro i (k | k)
    · exact .inl k
    · exact .inr k.1
  · exact fun u ns su nu p => mk.pl (m.chosen reg r.inn.se r.inn.ne su nu.isB p rfl)

end

/-- The walks around a loop, from its beginning. -/
inductive Rounds (exit pre again : List Nat → Prop) : Kd → List Nat → Prop
  | exit {ns : List Nat} {x : Ex} : exit ns → x.f = true → Rounds exit pre again (.ex x) ns
  | part {ns : List Nat} : pre ns → Rounds exit pre again .pre ns
  | again {ns ls : List Nat} {k : Kd} : again ns → Rounds exit pre again k ls → Rounds exit pre again k (ns ++ ls)

/-- A fragment that was given an incoming jump. -/
structure Lf (h : Heap) (T : Fr) (S : Nat → Prop) (t s d : Nat) : Prop where
  reg : Reg h S
  inn : In h S T.out t
  mem : d ∈ h.I t
  kind : (h.edge d).kind = .jmp
  out : Out h S T.out s
  jump : ∀ b, T.jump = some b → ∃ d ∈ h.O T.out, (h.edge d).kind = .jmp ∧ (h.edge d).dst = none ∧ (h.edge d).tag.on b = true
  run : ∀ k ns, T.run k ns → Reach h t T.out k ns

theorem Frag.loop {ω : Order} (fair : ω.Fair) {h : Heap} {T : Fr} {t s : Nat} (c : Clean h) (f : Frag h T t s) (one : T.one = true) (mem : T.out ∈ T.ins) :
    ∃ h', h.newJmpIn ω T.out { loop := true } = some h' ∧ Lf h' T (Ext T.S h h') t s h.next ∧ Clean h' ∧ h'.next = h.next + 1 ∧
      ∀ U : Nat → Prop, (∀ i, U i → i < h.next) → (∀ i, U i → ¬ T.S i) → Agree h h' U := by
  have r := f.ent.reg
  have i := f.ent.ins _ mem
  obtain ⟨h', q, j⟩ := newJmpIn_ji fair r i { loop := true }
  refine ⟨h', q, ⟨j.reg r i c, j.inn r i i, by rw [j.I]; simp, j.kind, j.out r i (f.last one).out, ?_, fun k ns q => j.reach r i f.ent.se f.ent.ne.isB f.sX f.bX (f.run k ns q)⟩,
    j.clean c, j.next, fun U lt dis => j.frame r i lt dis⟩
  intro b eb
  obtain ⟨d, md, k⟩ := f.jump b eb
  exact ⟨d, by rw [j.O r i f.sX f.bX]; exact md, by rw [j.eq r i (r.memO _ f.sX f.bX d md)]; exact k⟩

theorem Lf.agree {h h' : Heap} {T : Fr} {S : Nat → Prop} {t s d : Nat} (l : Lf h T S t s d) (a : Agree h h' S) (n : h.next ≤ h'.next) : Lf h' T S t s d := by
  refine ⟨l.reg.agree a n, l.inn.agree a l.reg, by rw [a.I l.reg l.inn.se l.inn.ne.isB]; exact l.mem, ?_, l.out.agree a l.reg, ?_,
    fun k ns q => (l.run k ns q).agree a l.reg l.inn.se l.inn.ne l.inn.sB l.inn.bB⟩
  · rw [a.edge d (l.reg.memI t l.inn.se l.inn.ne.isB d l.mem)]; exact l.kind
  · intro b eb
    obtain ⟨d, md, k⟩ := l.jump b eb
    exact ⟨d, by rw [a.O l.reg l.inn.sB l.inn.bB]; exact md, by rw [a.edge d (l.reg.memO _ l.inn.sB l.inn.bB d md)]; exact k⟩

/-- Linking what comes before a loop to its beginning. -/
theorem Lf.enter {ω : Order} (fair : ω.Fair) {h : Heap} {E T : Fr} {S : Nat → Prop} {a sE t s d : Nat} (c : Clean h) (l : Lf h T S t s d) (fE : Frag h E a sE)
    (oE : E.one = true) (dis : ∀ i, E.S i → ¬ S i) (tk : EK) :
    ∃ h' S', h.link ω E.out .seq {} tk {} T.out {} = some h' ∧ Rn h' S' E.ins a T.out t d ∧ Lf h' T S' t s d ∧ (∀ i, S' i → E.S i ∨ S i ∨ h.next ≤ i) ∧ h.next ≤ h'.next ∧
      (∀ i, E.S i ∨ S i → S' i) ∧ (∀ U : Nat → Prop, (∀ i, U i → i < h.next) → (∀ i, U i → ¬ E.S i) → (∀ i, U i → ¬ S i) → Agree h h' U) ∧
      (∀ ns, E.run .seq ns → PL h' a ns t) ∧ ∀ ns, E.run .pre ns → Pre h' a ns := by
  have r := fE.ent.reg.union l.reg dis
  have i : In h (Un E.S S) T.out t := ⟨.inr l.inn.sB, l.inn.bB, .inr l.inn.se, l.inn.ne, l.inn.ins, l.inn.seq⟩
  obtain ⟨h', q, m, _⟩ := link_em fair c r (.inl fE.sX) fE.bX i (fk := .seq) (ft := {}) (tk := tk) (tt := {}) rfl (fl := {}) rfl
    ⟨rfl, .inr (.inr (.inl (not_only i (k := .jmp) (by simp) ⟨d, l.mem, l.kind⟩)))⟩
  rw [(fE.last oE).out.cho] at m
  have ls := m.ls c r l.inn.se l.inn.ne
  have en := ls.ent c l.reg l.inn.se dis fE.ent
  have hQ : ∀ d, d = sE → E.S d := by rintro d rfl; exact fE.ent.reg.memO _ fE.sX fE.bX _ (fE.last oE).out.mem
  have jI := m.inI r i.se i.ne i.se i.ne l.mem
  refine ⟨h', _, q, ⟨ls.clean, en, m.inn r i.se i.ne i, jI.1, by rw [jI.2]; exact l.kind, fun q => dis a fE.ent.se (q ▸ l.inn.se)⟩,
    ⟨en.reg, m.inn r i.se i.ne i, jI.1, by rw [jI.2]; exact l.kind, ls.outV l.reg dis hQ l.out, ?_, ?_⟩, ?_, m.next, fun i k => .inl k, ?_, ?_, ?_⟩
  · intro b eb
    obtain ⟨x, mx, k1, k2, k3⟩ := l.jump b eb
    have sx := l.reg.memO _ l.inn.sB l.inn.bB x mx
    exact ⟨x, by rw [m.O r i.se i.ne i.sB i.bB]; exact mx, by rw [m.kind (l.reg.lt x sx)]; exact k1, by rw [m.miss (l.reg.lt x sx) (fun q => dis x (hQ x q) sx)]; exact k2,
      by rw [Tag.on_like (m.like r i.se i.ne i.sB i.bB mx)]; exact k3⟩
  · intro k ns q
    refine m.reach c r i.se i.ne i.se i.ne i.sB i.bB ?_ (l.run k ns q)
    rintro x _ d md _ rfl
    exact dis d (hQ d rfl) (l.reg.memO _ l.inn.sB l.inn.bB d md)
  · rintro i ((k | k) | k)
    · exact .inl k
    · exact .inr (.inl k)
    · exact .inr (.inr k.1)
  · intro U lt d1 d2
    exact ls.frame lt d1 d2
  · exact fun ns q => m.chosen r i.se i.ne (.inl fE.ent.se) fE.ent.ne.isB ((fE.run _ ns q).seq (fE.last oE).out) rfl
  · exact fun ns q => m.pre r i.se i.ne (.inl fE.ent.se) fE.ent.ne.isB (fE.run _ ns q)

theorem okf {e : Edge} : Ex.ok { f := true } e → e.kind = .jmp ∧ e.tag.on false = true := by
  rintro (⟨k, _⟩ | ⟨b, k, k2⟩)
  · cases k
  · cases b with
    | true => cases k
    | false => exact k2

/-- The loop is being built: it begins with the test `T`; walks of `G` have been linked to it. -/
structure Bd (h : Heap) (S : Nat → Prop) (E T G : Fr) (Y a t s d : Nat) : Prop where
  rn : Rn h S E.ins a T.out t d
  out : Out h S G.out s
  blk : S Y ∧ h.IsB Y
  jump : ∃ d ∈ h.O T.out, (h.edge d).kind = .jmp ∧ (h.edge d).dst = none ∧ (h.edge d).tag.on false = true
  pl : ∀ ns, E.run .seq ns → PL h a ns t
  pre : ∀ ns, E.run .pre ns → Pre h a ns
  exit : ∀ ns, T.run (.ex { f := true }) ns → Reach h t T.out (.ex { f := true }) ns
  run : ∀ k ns, G.run k ns → Reach h t G.out k ns

section

variable {ω : Order} (fair : ω.Fair) {h : Heap} {S : Nat → Prop} {E T G B : Fr} {Y a t s d : Nat}

include fair

/-- The body of the loop goes on. -/
theorem Bd.next (b : Bd h S E T G Y a t s d) {e sB : Nat} (f : Frag h B e sB) (oB : B.one = true) (hB : B.out ∈ B.ins) (dis : ∀ i, S i → ¬ B.S i) :
    ∃ h' S', h.link ω G.out .seq {} .seq {} B.out {} = some h' ∧ Mv h h' S S' (fun d => d = s) a t ∧ (∀ i, S' i → S i ∨ B.S i ∨ h.next ≤ i) ∧ (∀ i, B.S i → S' i) ∧
      h'.IsB B.out ∧ Bd h' S' E T { B with run := Seqd (G.run .seq) G B } Y a t sB d := by
  have r := b.rn.ent.reg
  obtain ⟨h', q, l⟩ := link_ls fair b.rn.clean r f.ent.reg dis b.out (f.ent.ins _ hB) f.ent.fr .seq {}
  have m : Mv h h' S (Ext (Un S B.S) h h') (fun d => d = s) a t := l.mv b.rn.clean r f.ent.reg f.ent.se dis (by rintro d rfl; exact b.out.hang)
  have hQ : ∀ d, d = s → S d := by rintro d rfl; exact r.memO _ b.out.sX b.out.bX _ b.out.mem
  have nj : ∀ x, (h.edge x).kind = .jmp → ¬ x = s := by
    rintro x k rfl
    rw [b.out.kind] at k; cases k
  have i := b.rn.inn
  have en := b.rn.ent
  refine ⟨h', _, q, m, ?_, fun i k => .inl (.inr k), (l.isB _).mpr f.bX, m.rn b.rn, l.outV f.ent.reg dis hQ (f.last oB).out, ⟨m.sub _ b.blk.1, m.isB _ b.blk.2⟩, ?_, ?_, ?_, ?_, ?_⟩
  · rintro i ((k | k) | k)
    · exact .inl k
    · exact .inr (.inl k)
    · exact .inr (.inr k.1)
  · obtain ⟨x, mx, k1, k2, k3⟩ := b.jump
    obtain ⟨p1, p2, p3, p4⟩ := m.O _ x i.sB i.bB mx (nj x k1)
    exact ⟨x, p1, by rw [p2]; exact k1, by rw [p3]; exact k2, by rw [Tag.on_like p4]; exact k3⟩
  · exact fun ns k => m.pl _ _ _ en.se en.ne (b.pl ns k)
  · exact fun ns k => m.pre _ _ en.se en.ne (b.pre ns k)
  · intro ns k
    refine m.reach i.se i.ne i.sB i.bB ?_ (b.exit ns k)
    rintro x ex c mc _ ok
    cases ex
    exact nj c (okf ok).1
  · rintro k ns (⟨n1, n2, rfl, p, q⟩ | ⟨rfl, p⟩)
    · exact l.reachV f.ent.reg dis hQ i.se i.ne f.sX f.bX ((b.run _ n1 p).seq b.out) rfl (f.run k n2 q)
    · exact m.pre _ _ i.se i.ne (b.run _ ns p)

/-- The end of the loop: back to the test; the group for what hangs. -/
theorem Bd.done (b : Bd h S E T G Y a t s d) (hE : E.out ∈ E.ins) (hd : ∀ b, E.head = some b → a = b) :
    ∃ h1 h2 S', h.link ω G.out .seq {} .seq {} T.out {} = some h1 ∧ h1.markLoop ω G.out = some h2 ∧
      Clean (h2.grpHalf E.out T.out Y).1 ∧ h.next ≤ (h2.grpHalf E.out T.out Y).1.next ∧ (∀ i, S i → S' i) ∧ (∀ i, S' i → S i ∨ h.next ≤ i) ∧
      (∀ U : Nat → Prop, (∀ i, U i → i < h.next) → (∀ i, U i → ¬ S' i) → Agree h (h2.grpHalf E.out T.out Y).1 U) ∧
      Frag (h2.grpHalf E.out T.out Y).1 { S := S', ins := (h2.grpHalf E.out T.out Y).2 :: E.ins, out := (h2.grpHalf E.out T.out Y).2, one := false, jump := some false, head := E.head, run := Seqd (E.run .seq) E { E with run := Rounds (T.run (.ex { f := true })) (G.run .pre) (G.run .seq) } } a 0 := by
  obtain ⟨h1, h2, S', q1, q2, m, ds, ks, ms, new, back⟩ := b.rn.back fair b.out
  have rn := m.rn b.rn
  have i := b.rn.inn
  have en := b.rn.ent
  have nj : ∀ x, (h.edge x).kind = .jmp → ¬ x = s := by
    rintro x k rfl
    rw [b.out.kind] at k; cases k
  have exit : ∀ ns, T.run (.ex { f := true }) ns → Reach h2 t T.out (.ex { f := true }) ns := by
    intro ns k
    refine m.reach i.se i.ne i.sB i.bB ?_ (b.exit ns k)
    rintro x ex c mc _ ok
    cases ex
    exact nj c (okf ok).1
  have loop : ∀ k ns, Rounds (T.run (.ex { f := true })) (G.run .pre) (G.run .seq) k ns → Reach h2 t T.out k ns ∧ ∀ x, k = .ex x → Reach h2 t T.out (.ex { f := true }) ns := by
    intro k ns q
    induction q with
    | @exit ns x q xf =>
      refine ⟨(exit ns q).mono (by simp) ?_, fun _ _ => exit ns q⟩
      intro b; cases b
      · exact fun _ => xf
      · intro k; cases k
    | part q => exact ⟨m.pre _ _ i.se i.ne (b.run _ _ q), by simp⟩
    | again q z ih =>
      have p := back _ _ i.se i.ne ((b.run _ _ q).seq b.out)
      exact ⟨p.reach ih.1, fun x ex => p.reach (ih.2 x ex)⟩
  have sY := m.sub _ b.blk.1
  have bY := m.isB _ b.blk.2
  obtain ⟨ev, gp⟩ := grpHalf_gp (A := E.out) rn.clean rn.ent.reg rn.inn.sB rn.inn.bB sY bY
  have iA := rn.ent.ins _ hE
  have hL : ∀ d, (d ∈ h2.xJmp T.out ∨ d ∈ h2.xOut Y) → ∃ b, S' b ∧ h2.IsB b ∧ d ∈ h2.O b := by
    rintro d (k | k)
    · exact ⟨T.out, rn.inn.sB, rn.inn.bB, (mem_xJmp.mp k).1⟩
    · exact ⟨Y, sY, bY, (mem_xOut.mp k).1⟩
  have mn := m.next
  refine ⟨h1, h2, Ext S' h2 (h2.grpHalf E.out T.out Y).1, q1, q2, gp.clean rn.clean rn.ent.reg iA.sB, by rw [gp.next]; omega, fun i k => .inl (m.sub i k), ?_, ?_, ?_⟩
  · rintro i (k | k)
    · exact new i k
    · exact .inr (by omega)
  · intro U lt dis
    exact (m.frame U lt (fun i k q => dis i k (.inl q))).trans (gp.frame rn.clean rn.ent.reg iA.sB (fun i k => Nat.lt_of_lt_of_le (lt i k) mn) (fun i k q => dis i k (.inl q)))
  rw [ev]
  refine ⟨gp.ent rn.clean rn.ent.reg rn.ent hE hL, gp.ext rn.clean rn.ent.reg iA.sB, gp.isBvn rn.clean rn.ent.reg, by simp, by simp, ?_, ?_, hd⟩
  · intro c ec
    cases ec
    obtain ⟨x, mx, k1, k2, k3⟩ := b.jump
    obtain ⟨p1, p2, p3, p4⟩ := m.O _ x i.sB i.bB mx (nj x k1)
    refine ⟨x, (gp.mem x).mpr (.inl (mem_xJmp.mpr ⟨p1, by rw [p2, k1]; simp, by rw [p3]; exact k2⟩)), ?_, ?_, ?_⟩
    · rw [gp.edge, p2]; exact k1
    · rw [gp.edge, p3]; exact k2
    · rw [gp.edge, Tag.on_like p4]; exact k3
  · rintro k ns (⟨n1, n2, rfl, p, q⟩ | ⟨rfl, p⟩)
    · have pl := m.pl _ _ _ en.se en.ne (b.pl n1 p)
      cases k with
      | pre => exact gp.pre rn.clean rn.ent.reg rn.ent.se rn.ent.ne (pl.reach (loop _ _ q).1)
      | ex x =>
        have p0 := pl.reach ((loop _ _ q).2 x rfl)
        have xf : x.f = true := by
          clear p0
          generalize ek : Kd.ex x = k at q
          induction q with
          | exit _ xf => cases ek; exact xf
          | part => cases ek
          | again _ _ ih => exact ih ek
        have := gp.reach rn.clean rn.ent.reg rn.ent.se rn.ent.ne (fun y ey d md k2 ok => by
          cases ey
          exact .inl (mem_xJmp.mpr ⟨md, by rw [(okf ok).1]; simp, k2⟩)) p0
        refine this.mono (by simp) ?_
        intro b; cases b
        · exact fun _ => xf
        · intro k; cases k
    · exact gp.pre rn.clean rn.ent.reg rn.ent.se rn.ent.ne (m.pre _ _ en.se en.ne (b.pre ns p))

/-- What is run before the first test. -/
def Fr.andThen (E : Fr) : Option Fr → Fr
  | none => E
  | some I => { E with run := Seqd (E.run .seq) E I }

theorem Lf.init (c : Clean h) (l : Lf h T S t s d) {sE : Nat} (fE : Frag h E a sE) (oE : E.one = true) (dis : ∀ i, E.S i → ¬ S i) (I : Option Fr)
    (fI : ∀ F ∈ I, (∃ e s, Frag h F e s) ∧ F.one = true ∧ F.out ∈ F.ins ∧ (∀ i, E.S i → ¬ F.S i) ∧ ∀ i, F.S i → ¬ S i) :
    ∃ h' S', h.linkInit ω E.out (I.map Fr.out) T.out = some h' ∧ Rn h' S' E.ins a T.out t d ∧ Lf h' T S' t s d ∧
      (∀ i, S' i → E.S i ∨ (∃ F ∈ I, F.S i) ∨ S i ∨ h.next ≤ i) ∧ h.next ≤ h'.next ∧ (∀ i, S i → S' i) ∧
      (∀ U : Nat → Prop, (∀ i, U i → i < h.next) → (∀ i, U i → ¬ E.S i) → (∀ F ∈ I, ∀ i, U i → ¬ F.S i) → (∀ i, U i → ¬ S i) → Agree h h' U) ∧
      (∀ ns, (E.andThen I).run .seq ns → PL h' a ns t) ∧ ∀ ns, (E.andThen I).run .pre ns → Pre h' a ns := by
  cases I with
  | none =>
    obtain ⟨h', S', q, rn, lf, new, n, sub, fr, p1, p2⟩ := l.enter fair c fE oE dis .none
    refine ⟨h', S', q, rn, lf, ?_, n, fun i k => sub i (.inr k), fun U lt d1 _ d2 => fr U lt d1 d2, p1, p2⟩
    intro i k
    rcases new i k with k | k | k
    · exact .inl k
    · exact .inr (.inr (.inl k))
    · exact .inr (.inr (.inr k))
  | some I =>
    obtain ⟨⟨e, sI, fI⟩, oI, hI, dEI, dIS⟩ := fI I rfl
    obtain ⟨h1, q1, ls⟩ := link_ls fair c fE.ent.reg fI.ent.reg dEI (fE.last oE).out (fI.ent.ins _ hI) fI.ent.fr .none {}
    have hQ : ∀ d, d = sE → E.S d := by rintro d rfl; exact fE.ent.reg.memO _ fE.sX fE.bX _ (fE.last oE).out.mem
    have f1 := ls.frag c fE fI dEI hQ (run := Seqd (E.run .seq) E I) (by
      rintro k ns (⟨n1, n2, rfl, q, r⟩ | ⟨rfl, q⟩)
      · exact ls.reachV fI.ent.reg dEI hQ fE.ent.se fE.ent.ne fI.sX fI.bX ((fE.run .seq n1 q).seq (fE.last oE).out) rfl (fI.run k n2 r)
      · exact ls.tAp a ns fE.ent.se fE.ent.ne (fE.run .pre ns q))
    have l1 := l.agree (ls.frame l.reg.lt (fun i k q => dis i q k) (fun i k q => dIS i q k)) ls.next
    have d1 : ∀ i, Ext (Un E.S I.S) h h1 i → ¬ S i := by
      rintro i ((k | k) | k) q
      · exact dis i k q
      · exact dIS i k q
      · have := l.reg.lt i q; omega
    obtain ⟨h', S', q, rn, lf, new, n, sub, fr, p1, p2⟩ := l1.enter fair ls.clean f1 oI d1 .seq
    have n1 := ls.next
    refine ⟨h', S', ?_, rn, lf, ?_, by omega, fun i k => sub i (.inr k), ?_, p1, p2⟩
    · show (h.link ω E.out .seq {} .none {} I.out {}).bind _ = _
      rw [q1]; exact q
    · intro i k
      rcases new i k with ((k | k) | k) | k | k
      · exact .inl k
      · exact .inr (.inl ⟨I, rfl, k⟩)
      · exact .inr (.inr (.inr k.1))
      · exact .inr (.inr (.inl k))
      · exact .inr (.inr (.inr (by omega)))
    · intro U lt d1 d2 d3
      refine (ls.frame lt d1 (d2 I rfl)).trans (fr U (fun i k => Nat.lt_of_lt_of_le (lt i k) n1) ?_ d3)
      rintro i k ((q | q) | q)
      · exact d1 i k q
      · exact d2 I rfl i k q
      · have := lt i k; omega

/-- A test, the body of the loop and the update. -/
def Fr.round (T B : Fr) : Option Fr → Fr
  | none => { B with run := Seqd (T.run .seq) T B }
  | some U => { U with run := Seqd (Seqd (T.run .seq) T B .seq) { B with run := Seqd (T.run .seq) T B } U }

/-- The walks through a loop. -/
def ForRun (E T B : Fr) (I U : Option Fr) : Kd → List Nat → Prop :=
  Seqd ((E.andThen I).run .seq) (E.andThen I) { E with run := Rounds (T.run (.ex { f := true })) ((T.round B U).run .pre) ((T.round B U).run .seq) }

theorem W.for {h0 : Heap} {I U : Option Fr} {Fs : List Fr} (w : W h0 h (E :: T :: B :: I.toList ++ U.toList ++ Fs)) (oE : E.one = true) (oT : T.one = true) (oB : B.one = true)
    (jT : T.jump = some false) (hE : E.out ∈ E.ins) (hT : T.out ∈ T.ins) (hB : B.out ∈ B.ins) (gI : ∀ F ∈ I, F.one = true ∧ F.out ∈ F.ins)
    (gU : ∀ F ∈ U, F.one = true ∧ F.out ∈ F.ins) :
    ∃ h1 h2 h3 S', h.newJmpIn ω T.out { loop := true } = some h1 ∧ h1.linkInit ω E.out (I.map Fr.out) T.out = some h2 ∧ h2.linkRound ω T.out (U.map Fr.out) B.out = some h3 ∧
      W h0 (h3.grpHalf E.out T.out B.out).1 ({ S := S', ins := (h3.grpHalf E.out T.out B.out).2 :: E.ins, out := (h3.grpHalf E.out T.out B.out).2, one := false, jump := some false, head := E.head, run := ForRun E T B I U } :: Fs) := by
  let Os := E :: T :: B :: I.toList ++ U.toList
  have dis : Os.Pairwise (fun F G => ∀ i, F.S i → ¬ G.S i) := (List.pairwise_append.mp w.dis).1
  have frags : ∀ F ∈ Os, ∃ e s, Frag h F e s := fun F m => w.frag F (List.mem_append_left _ m)
  have mI : ∀ F ∈ I, F ∈ I.toList := by intro F m; simpa using m
  have mU : ∀ F ∈ U, F ∈ U.toList := by intro F m; simpa using m
  obtain ⟨d1, dis⟩ := List.pairwise_cons.mp dis
  obtain ⟨d2, dis⟩ := List.pairwise_cons.mp dis
  obtain ⟨d3, dis⟩ := List.pairwise_cons.mp dis
  have dIU : ∀ F ∈ I, ∀ G ∈ U, ∀ i, F.S i → ¬ G.S i := fun F m G n => (List.pairwise_append.mp dis).2.2 F (mI F m) G (mU G n)
  obtain ⟨a, sE, fE⟩ := frags E (by simp [Os])
  obtain ⟨t, sT, fT⟩ := frags T (by simp [Os])
  obtain ⟨b, sB, fB⟩ := frags B (by simp [Os])
  have fI : ∀ F ∈ I, ∃ e s, Frag h F e s := fun F m => frags F (by simp [Os, Option.mem_def.mp m])
  have fU : ∀ F ∈ U, ∃ e s, Frag h F e s := fun F m => frags F (by simp [Os, Option.mem_def.mp m])
  have dET : ∀ i, E.S i → ¬ T.S i := d1 T (by simp)
  have dEB : ∀ i, E.S i → ¬ B.S i := d1 B (by simp)
  have dEI : ∀ F ∈ I, ∀ i, E.S i → ¬ F.S i := fun F m => d1 F (by simp [Option.mem_def.mp m])
  have dEU : ∀ F ∈ U, ∀ i, E.S i → ¬ F.S i := fun F m => d1 F (by simp [Option.mem_def.mp m])
  have dTB : ∀ i, T.S i → ¬ B.S i := d2 B (by simp)
  have dTI : ∀ F ∈ I, ∀ i, T.S i → ¬ F.S i := fun F m => d2 F (by simp [Option.mem_def.mp m])
  have dTU : ∀ F ∈ U, ∀ i, T.S i → ¬ F.S i := fun F m => d2 F (by simp [Option.mem_def.mp m])
  have dBI : ∀ F ∈ I, ∀ i, B.S i → ¬ F.S i := fun F m => d3 F (by simp [Option.mem_def.mp m])
  have dBU : ∀ F ∈ U, ∀ i, B.S i → ¬ F.S i := fun F m => d3 F (by simp [Option.mem_def.mp m])
  have old : ∀ i, (i < h.next ∧ ∀ F ∈ Os, ¬ F.S i) → i < h.next ∧ ¬ E.S i ∧ ¬ T.S i ∧ ¬ B.S i ∧ (∀ F ∈ I, ¬ F.S i) ∧ ∀ F ∈ U, ¬ F.S i :=
    fun i k => ⟨k.1, k.2 E (by simp [Os]), k.2 T (by simp [Os]), k.2 B (by simp [Os]), fun F m => k.2 F (by simp [Os, Option.mem_def.mp m]),
      fun F m => k.2 F (by simp [Os, Option.mem_def.mp m])⟩
  -- the incoming jump
  obtain ⟨h1, q1, lf1, c1, n1, fr1⟩ := fT.loop fair w.clean oT hT
  have le1 : h.next ≤ h1.next := by omega
  have fE1 := fE.agree (fr1 _ fE.ent.reg.lt (fun i k q => dET i k q)) le1
  have fB1 := fB.agree (fr1 _ fB.ent.reg.lt (fun i k q => dTB i q k)) le1
  have fI1 : ∀ F ∈ I, ∃ e s, Frag h1 F e s := fun F m => let ⟨e, s, f⟩ := fI F m; ⟨e, s, f.agree (fr1 _ f.ent.reg.lt (fun i k q => dTI F m i q k)) le1⟩
  have fU1 : ∀ F ∈ U, ∃ e s, Frag h1 F e s := fun F m => let ⟨e, s, f⟩ := fU F m; ⟨e, s, f.agree (fr1 _ f.ent.reg.lt (fun i k q => dTU F m i q k)) le1⟩
  have ltF : ∀ F ∈ Os, ∀ i, F.S i → i < h.next := fun F m i k => let ⟨_, _, f⟩ := frags F m; f.ent.reg.lt i k
  have apart1 : ∀ F ∈ Os, (∀ i, F.S i → ¬ T.S i) → ∀ i, F.S i → ¬ Ext T.S h h1 i := by
    rintro F m d i k (q | q)
    · exact d i k q
    · have := ltF F m i k; omega
  -- to the test
  obtain ⟨h2, S2, q2, rn2, lf2, new2, le2, sub2, fr2, pl2, pre2⟩ := lf1.init fair c1 fE1 oE (apart1 E (by simp [Os]) dET) I
    (fun F m => ⟨fI1 F m, (gI F m).1, (gI F m).2, dEI F m, apart1 F (by simp [Os, Option.mem_def.mp m]) (fun i k q => dTI F m i q k)⟩)
  have fB2 := fB1.agree (fr2 _ fB1.ent.reg.lt (fun i k q => dEB i q k) (fun F m i k q => dBI F m i k q) (apart1 B (by simp [Os]) (fun i k q => dTB i q k))) le2
  have fU2 : ∀ F ∈ U, ∃ e s, Frag h2 F e s := fun F m => let ⟨e, s, f⟩ := fU1 F m
    ⟨e, s, f.agree (fr2 _ f.ent.reg.lt (fun i k q => dEU F m i q k) (fun G n i k q => dIU G n F m i q k)
      (apart1 F (by simp [Os, Option.mem_def.mp m]) (fun i k q => dTU F m i q k))) le2⟩
  have in2 : ∀ i, S2 i → (∃ F ∈ Os, F.S i ∧ (F = E ∨ F = T ∨ F ∈ I)) ∨ h.next ≤ i := by
    intro i k
    rcases new2 i k with k | ⟨F, m, k⟩ | (k | k) | k
    · exact .inl ⟨E, by simp [Os], k, .inl rfl⟩
    · exact .inl ⟨F, by simp [Os, Option.mem_def.mp m], k, .inr (.inr m)⟩
    · exact .inl ⟨T, by simp [Os], k, .inr (.inl rfl)⟩
    · exact .inr k.1
    · exact .inr (by omega)
  have bd2 : Bd h2 S2 (E.andThen I) T T T.out a t sT h.next := by
    refine ⟨?_, lf2.out, ⟨lf2.inn.sB, lf2.inn.bB⟩, lf2.jump false jT, pl2, pre2, fun ns q => lf2.run _ _ q, lf2.run⟩
    cases I <;> exact rn2
  -- the body
  have dB2 : ∀ i, S2 i → ¬ B.S i := by
    intro i k q
    rcases in2 i k with ⟨F, m, p, rfl | rfl | k⟩ | k
    · exact dEB i p q
    · exact dTB i p q
    · exact dBI F k i q p
    · have := ltF B (by simp [Os]) i q; omega
  obtain ⟨h3, S3, q3, m3, new3, subB, isB3, bd3⟩ := bd2.next fair fB2 oB hB dB2
  have bd3 : Bd h3 S3 (E.andThen I) T { B with run := Seqd (T.run .seq) T B } B.out a t sB h.next := { bd3 with blk := ⟨subB _ fB2.sX, isB3⟩ }
  have le3 := m3.next
  have in3 : ∀ i, S3 i → (∃ F ∈ Os, F.S i ∧ (F = E ∨ F = T ∨ F = B ∨ F ∈ I)) ∨ h.next ≤ i := by
    intro i k
    rcases new3 i k with k | k | k
    · rcases in2 i k with ⟨F, m, p, k⟩ | k
      · exact .inl ⟨F, m, p, k.imp id (.imp id .inr)⟩
      · exact .inr k
    · exact .inl ⟨B, by simp [Os], k, .inr (.inr (.inl rfl))⟩
    · exact .inr (by omega)
  have old3 : ∀ i, (i < h.next ∧ ∀ F ∈ Os, ¬ F.S i) → ¬ S3 i := by
    intro i k q
    rcases in3 i q with ⟨F, m, p, _⟩ | q
    · exact k.2 F m p
    · omega
  have eqE : (E.andThen I).out = E.out ∧ (E.andThen I).ins = E.ins ∧ (E.andThen I).head = E.head := by cases I <;> exact ⟨rfl, rfl, rfl⟩
  have ag3 : Agree h h3 (fun i => i < h.next ∧ ∀ F ∈ Os, ¬ F.S i) := by
    refine (fr1 _ (fun i k => k.1) (fun i k => (old i k).2.2.1)).trans ((fr2 _ (fun i k => by have := k.1; omega) (fun i k => (old i k).2.1)
      (fun F m i k => (old i k).2.2.2.2.1 F m) ?_).trans (m3.frame _ (fun i k => by have := k.1; omega) old3))
    rintro i k (q | q)
    · exact (old i k).2.2.1 q
    · have := k.1; omega
  have last : ∀ {h4 : Heap} {S4 : Nat → Prop} {G : Fr} {s4 : Nat}, Bd h4 S4 (E.andThen I) T G B.out a t s4 h.next → G.run = (T.round B U).run → h3.next ≤ h4.next →
      (∀ i, S4 i → (∃ F ∈ Os, F.S i) ∨ h.next ≤ i) → Agree h h4 (fun i => i < h.next ∧ ∀ F ∈ Os, ¬ F.S i) →
      ∃ h5 h6 S', h4.link ω G.out .seq {} .seq {} T.out {} = some h5 ∧ h5.markLoop ω G.out = some h6 ∧
        W h0 (h6.grpHalf E.out T.out B.out).1 ({ S := S', ins := (h6.grpHalf E.out T.out B.out).2 :: E.ins, out := (h6.grpHalf E.out T.out B.out).2, one := false, jump := some false, head := E.head, run := ForRun E T B I U } :: Fs) := by
    intro h4 S4 G s4 bd eG le in4 ag
    obtain ⟨h5, h6, S', p1, p2, c6, le6, sub6, new6, fr6, fg⟩ := bd.done fair (by rw [eqE.1, eqE.2.1]; exact hE) (by rw [eqE.2.2]; exact fE.head)
    rw [eqE.1, eqE.2.1, eqE.2.2, eG] at fg
    rw [eqE.1] at c6 le6 fr6
    have in6 : ∀ i, S' i → (∃ F ∈ Os, F.S i) ∨ h.next ≤ i := by
      intro i k
      rcases new6 i k with k | k
      · exact in4 i k
      · exact .inr (by omega)
    refine ⟨h5, h6, S', p1, p2, W.step (Os := Os) w c6 (by omega) (ag.trans (fr6 _ (fun i k => by have := k.1; omega) ?_)) (e := a) (s := 0) ?_ in6⟩
    · intro i k q
      rcases in6 i q with ⟨F, m, p⟩ | q
      · exact k.2 F m p
      · omega
    · refine ⟨fg.ent, fg.sX, fg.bX, fg.blks, by simp, fg.jump, fg.run, fg.head⟩
  cases U with
  | none =>
    obtain ⟨h5, h6, S', p1, p2, wf⟩ := last bd3 rfl (Nat.le_refl _) (fun i k => (in3 i k).imp (fun ⟨F, m, p, _⟩ => ⟨F, m, p⟩) id) ag3
    refine ⟨h1, h2, h6, S', q1, q2, ?_, wf⟩
    rw [Heap.linkRound, q3, Option.bind_some]
    show (h3.link ω B.out .seq {} .seq {} T.out {}).bind _ = _
    rw [p1]; exact p2
  | some U =>
    obtain ⟨u, sU, fU⟩ := fU2 U rfl
    have dU : ∀ i, S3 i → ¬ U.S i := by
      intro i k q
      rcases in3 i k with ⟨F, m, p, rfl | rfl | rfl | k⟩ | k
      · exact dEU U rfl i p q
      · exact dTU U rfl i p q
      · exact dBU U rfl i p q
      · exact dIU F k U rfl i p q
      · have := ltF U (by simp [Os]) i q; omega
    have dU2 : ∀ i, U.S i → ¬ S3 i := fun i k q => dU i q k
    obtain ⟨h4, S4, q4, m4, new4, _, _, bd4⟩ := bd3.next fair (fU.agree (m3.frame _ fU.ent.reg.lt dU2) m3.next) (gU U rfl).1 (gU U rfl).2 dU
    have le4 := m4.next
    have in4 : ∀ i, S4 i → (∃ F ∈ Os, F.S i) ∨ h.next ≤ i := by
      intro i k
      rcases new4 i k with k | k | k
      · exact (in3 i k).imp (fun ⟨F, m, p, _⟩ => ⟨F, m, p⟩) id
      · exact .inl ⟨U, by simp [Os], k⟩
      · exact .inr (by omega)
    obtain ⟨h5, h6, S', p1, p2, wf⟩ := last bd4 rfl le4 in4 (ag3.trans (m4.frame _ (fun i k => by have := k.1; omega) (by
      intro i k q
      rcases in4 i q with ⟨F, m, p⟩ | q
      · exact k.2 F m p
      · omega)))
    refine ⟨h1, h2, h6, S', q1, q2, ?_, wf⟩
    rw [Heap.linkRound, q3, Option.bind_some]
    show (h3.link ω B.out .seq {} .seq {} U.out {}).bind _ = _
    rw [q4, Option.bind_some]
    show (h4.link ω U.out .seq {} .seq {} T.out {}).bind _ = _
    rw [p1]; exact p2

/-- The walks through a loop. -/
def DoRun (E T B : Fr) : Kd → List Nat → Prop :=
  Seqd (E.run .seq) E { E with run := Rounds (Seqd (B.run .seq) B T (.ex { f := true })) (Seqd (B.run .seq) B T .pre) (Seqd (B.run .seq) B T (.ex { q := true, t := true })) }

theorem W.doWhile {h0 : Heap} {Fs : List Fr} (w : W h0 h (E :: T :: B :: Fs)) (oE : E.one = true) (oT : T.one = true) (oB : B.one = true)
    (jT : T.jump = some false) (hE : E.out ∈ E.ins) (hT : T.out ∈ T.ins) (hB : B.out ∈ B.ins) :
    ∃ h' S', h.linkDo ω E.out T.out B.out = some h' ∧
      W h0 (h'.grpHalf E.out T.out B.out).1 ({ S := S', ins := (h'.grpHalf E.out T.out B.out).2 :: E.ins, out := T.out, blks := [(h'.grpHalf E.out T.out B.out).2], one := false, jump := some false, head := E.head, run := DoRun E T B } :: Fs) := by
  obtain ⟨d1, dis⟩ := List.pairwise_cons.mp w.dis
  obtain ⟨d2, _⟩ := List.pairwise_cons.mp dis
  obtain ⟨a, sE, fE⟩ := w.frag E (by simp)
  obtain ⟨t0, sT, fT⟩ := w.frag T (by simp)
  obtain ⟨b, sB, fB⟩ := w.frag B (by simp)
  have dET : ∀ i, E.S i → ¬ T.S i := d1 T (by simp)
  have dEB : ∀ i, E.S i → ¬ B.S i := d1 B (by simp)
  have dTB : ∀ i, T.S i → ¬ B.S i := d2 B (by simp)
  -- the incoming jump
  obtain ⟨h1, q1, lf1, c1, n1, fr1⟩ := fB.loop fair w.clean oB hB
  have le1 : h.next ≤ h1.next := by omega
  have fE1 := fE.agree (fr1 _ fE.ent.reg.lt (fun i k q => dEB i k q)) le1
  have fT1 := fT.agree (fr1 _ fT.ent.reg.lt (fun i k q => dTB i k q)) le1
  have dE1 : ∀ i, E.S i → ¬ Ext B.S h h1 i := by
    rintro i k (q | q)
    · exact dEB i k q
    · have := fE.ent.reg.lt i k; omega
  have dT1 : ∀ i, T.S i → ¬ Ext B.S h h1 i := by
    rintro i k (q | q)
    · exact dTB i k q
    · have := fT.ent.reg.lt i k; omega
  -- to the body
  obtain ⟨h2, S2, q2, rn2, lf2, new2, le2, sub2, fr2, pl2, pre2⟩ := lf1.enter fair c1 fE1 oE dE1 .none
  have fT2 := fT1.agree (fr2 _ fT1.ent.reg.lt (fun i k q => dET i q k) dT1) le2
  have dT2 : ∀ i, S2 i → ¬ T.S i := by
    intro i k q
    rcases new2 i k with k | k | k
    · exact dET i k q
    · exact dT1 i q k
    · have := fT.ent.reg.lt i q; omega
  -- to the test
  obtain ⟨h3, q3, l3⟩ := link_ls fair rn2.clean rn2.ent.reg fT2.ent.reg dT2 lf2.out (fT2.ent.ins _ hT) fT2.ent.fr .seq {}
  have m3 : Mv h2 h3 S2 (Ext (Un S2 T.S) h2 h3) (fun d => d = sB) a b := l3.mv rn2.clean rn2.ent.reg fT2.ent.reg fT2.ent.se dT2 (by rintro d rfl; exact lf2.out.hang)
  have hQ : ∀ d, d = sB → S2 d := by rintro d rfl; exact rn2.ent.reg.memO _ lf2.out.sX lf2.out.bX _ lf2.out.mem
  have rn3 := m3.rn rn2
  have o3 := l3.outV fT2.ent.reg dT2 hQ (fT2.last oT).out
  have run3 : ∀ k ns, Seqd (B.run .seq) B T k ns → Reach h3 b T.out k ns := by
    rintro k ns (⟨n1, n2, rfl, p, q⟩ | ⟨rfl, p⟩)
    · exact l3.reachV fT2.ent.reg dT2 hQ rn2.inn.se rn2.inn.ne fT2.sX fT2.bX ((lf2.run _ n1 p).seq lf2.out) rfl (fT2.run k n2 q)
    · exact m3.pre _ _ rn2.inn.se rn2.inn.ne (lf2.run _ ns p)
  have pl3 : ∀ ns, E.run .seq ns → PL h3 a ns b := fun ns q => m3.pl _ _ _ rn2.ent.se rn2.ent.ne (pl2 ns q)
  have pre3 : ∀ ns, E.run .pre ns → Pre h3 a ns := fun ns q => m3.pre _ _ rn2.ent.se rn2.ent.ne (pre2 ns q)
  obtain ⟨dj, mj, kj, hj, tj⟩ := fT2.jump false jT
  have sj : T.S dj := fT2.ent.reg.memO _ fT2.sX fT2.bX dj mj
  have nj : ¬ dj = sB := fun q => dT2 dj (hQ dj q) sj
  have mj3 : dj ∈ h3.O T.out := by
    rcases l3.outs T.out (.inr fT2.sX) fT2.bX with k | ⟨k, _⟩
    · rw [k]; exact mj
    · exact absurd fT2.sX (dT2 _ k)
  have ej3 : (h3.edge dj).kind = .jmp ∧ (h3.edge dj).dst = none ∧ (h3.edge dj).tag.on false = true :=
    ⟨by rw [l3.kind dj (fT2.ent.reg.lt dj sj)]; exact kj, by rw [l3.dst _ (.inr fT2.sX) fT2.bX dj mj nj]; exact hj, by rw [Tag.on_like (l3.like _ (.inr fT2.sX) fT2.bX dj mj)]; exact tj⟩
  -- back
  obtain ⟨h4, h5, S5, q4, q5, m5, ds5, ks5, ms5, new5, back⟩ := rn3.back fair o3
  have rn5 := m5.rn rn3
  have jT3 : ∀ x, (h3.edge x).kind = .jmp → ¬ x = sT := by
    rintro x k rfl
    rw [o3.kind] at k; cases k
  have sX5 := m5.sub _ o3.sX
  have bX5 := m5.isB _ o3.bX
  -- jumps back
  obtain ⟨h6, q6, e6, _⟩ := link_em fair rn5.clean rn5.ent.reg sX5 bX5 rn5.inn (fk := .jmp) (ft := { t := true }) (tk := .jmp) (tt := {}) rfl (fl := {}) rfl ⟨rfl, .inl (by simp)⟩
  have m6 : Mv h5 h6 S5 (Ext S5 h5 h6) (Cho h5 T.out .jmp { t := true }) a b := e6.mv rn5.clean rn5.ent.reg rn5.inn.se rn5.inn.ne rn5.ne
  have rn6 := m6.rn rn5
  have nf : ∀ d, (h5.edge d).tag.on false = true → ¬ Cho h5 T.out .jmp { t := true } d := by
    rintro d on z
    have := z.2.1.2
    simp only [Tag.on, Tag.bit, Bool.not_false, Bool.and_eq_true, Bool.not_eq_true'] at on
    simp [Tag.isNone, Tag.meets, on] at this
  have O6 : h6.O T.out = h5.O T.out := e6.O rn5.ent.reg rn5.inn.se rn5.inn.ne sX5 bX5
  -- the marks
  have m7 : Mv h6 (h6.markJmpLoop { t := true } (h6.O T.out)) (Ext S5 h5 h6) (Ext S5 h5 h6) (fun d => (h6.edge d).dst ≠ none) a b := by
    refine markJmpLoop_mv rn6.clean rn6.ent.reg (.inl sX5) (m6.isB _ bX5) (fun d k => k) ?_
    intro d md k1 k2
    rw [O6] at md
    have ld := rn5.ent.reg.lt d (rn5.ent.reg.memO _ sX5 bX5 d md)
    by_cases q : Cho h5 T.out .jmp { t := true } d
    · rw [e6.hit rn5.ent.reg rn5.inn.se rn5.inn.ne q]; simp
    · rw [e6.miss ld q]
      intro z
      refine q ⟨md, ⟨by rw [← e6.kind ld]; exact k1, .inr ?_⟩, z⟩
      rw [← Tag.meets_like (e6.like rn5.ent.reg rn5.inn.se rn5.inn.ne sX5 bX5 md) rfl]; exact k2
  have rn7 := m7.rn rn6
  let h7 := h6.markJmpLoop { t := true } (h6.O T.out)
  let S7 := Ext S5 h5 h6
  have sX7 : S7 T.out := .inl sX5
  have bX7 : h7.IsB T.out := m7.isB _ (m6.isB _ bX5)
  have ej7 : dj ∈ h7.O T.out ∧ (h7.edge dj).kind = .jmp ∧ (h7.edge dj).dst = none ∧ (h7.edge dj).tag.on false = true := by
    obtain ⟨p1, p2, p3, p4⟩ := m5.O _ dj o3.sX o3.bX mj3 (jT3 dj ej3.1)
    have on5 : (h5.edge dj).tag.on false = true := by rw [Tag.on_like p4]; exact ej3.2.2
    obtain ⟨r1, r2, r3, r4⟩ := m6.O _ dj sX5 bX5 p1 (nf dj on5)
    have hg : (h6.edge dj).dst = none := by rw [r3, p3]; exact ej3.2.1
    obtain ⟨s1, s2, s3, s4⟩ := m7.O _ dj (.inl sX5) (m6.isB _ bX5) r1 (fun k => k hg)
    exact ⟨s1, by rw [s2, r2, p2]; exact ej3.1, by rw [s3]; exact hg, by rw [Tag.on_like s4, Tag.on_like r4]; exact on5⟩
  have n5 := m5.ng b rn3.inn.ne
  have exit : ∀ ns, Seqd (B.run .seq) B T (.ex { f := true }) ns → Reach h7 b T.out (.ex { f := true }) ns := by
    intro ns q
    refine m7.reach (rn6.inn.se) rn6.inn.ne (.inl sX5) (m6.isB _ bX5) (fun _ _ d _ k _ z => z k) ?_
    refine m6.reach rn5.inn.se rn5.inn.ne sX5 bX5 ?_ (m5.reach rn3.inn.se rn3.inn.ne o3.sX o3.bX ?_ (run3 _ ns q))
    · rintro x ex d _ _ ok
      cases ex
      exact nf d (okf ok).2
    · rintro x ex d _ _ ok
      cases ex
      exact jT3 d (okf ok).1
  have again : ∀ ns, Seqd (B.run .seq) B T (.ex { q := true, t := true }) ns → PL h7 b ns b := by
    intro ns q
    refine m7.pl _ _ _ rn6.inn.se rn6.inn.ne ?_
    obtain ⟨d, md, k1, k2, p⟩ := run3 _ ns q
    rcases k2 with ⟨_, k2⟩ | ⟨x, k, k2, k3⟩
    · rw [o3.uniq d md k2] at p
      exact m6.pl _ _ _ rn5.inn.se rn5.inn.ne (back _ _ rn3.inn.se rn3.inn.ne p)
    · cases x with
      | false => cases k
      | true =>
        obtain ⟨p1, p2, p3, p4⟩ := m5.O _ d o3.sX o3.bX md (jT3 d k2)
        refine e6.chosen rn5.ent.reg rn5.inn.se rn5.inn.ne rn5.inn.se rn5.inn.ne.isB (m5.pe _ _ _ rn3.inn.se rn3.inn.ne p (jT3 d k2)) ⟨p1, ⟨by rw [p2]; exact k2, .inr ?_⟩, by rw [p3]; exact k1⟩
        exact Tag.meets_on (b := true) (by rw [Tag.on_like p4]; exact k3) rfl
  have part : ∀ ns, Seqd (B.run .seq) B T .pre ns → Pre h7 b ns := fun ns q =>
    m7.pre _ _ rn6.inn.se rn6.inn.ne (m6.pre _ _ rn5.inn.se rn5.inn.ne (m5.pre _ _ rn3.inn.se rn3.inn.ne (run3 .pre ns q)))
  have loop : ∀ k ns, Rounds (Seqd (B.run .seq) B T (.ex { f := true })) (Seqd (B.run .seq) B T .pre) (Seqd (B.run .seq) B T (.ex { q := true, t := true })) k ns → Reach h7 b T.out k ns := by
    intro k ns q
    induction q with
    | @exit ns x q xf =>
      refine (exit ns q).mono (by simp) ?_
      intro b; cases b
      · exact fun _ => xf
      · intro k; cases k
    | part q => exact part _ q
    | again q z ih => exact (again _ q).reach ih
  have all : ∀ k ns, DoRun E T B k ns → Reach h7 a T.out k ns := by
    have pl7 : ∀ ns, E.run .seq ns → PL h7 a ns b := fun ns q =>
      m7.pl _ _ _ rn6.ent.se rn6.ent.ne (m6.pl _ _ _ rn5.ent.se rn5.ent.ne (m5.pl _ _ _ rn3.ent.se rn3.ent.ne (pl3 ns q)))
    have pre7 : ∀ ns, E.run .pre ns → Pre h7 a ns := fun ns q =>
      m7.pre _ _ rn6.ent.se rn6.ent.ne (m6.pre _ _ rn5.ent.se rn5.ent.ne (m5.pre _ _ rn3.ent.se rn3.ent.ne (pre3 ns q)))
    rintro k ns (⟨n1, n2, rfl, p, q⟩ | ⟨rfl, p⟩)
    · exact (pl7 n1 p).reach (loop k n2 q)
    · exact pre7 ns p
  -- the group
  have sB7 : S7 B.out := m6.sub _ (m5.sub _ (m3.sub _ rn2.inn.sB))
  have bB7 : h7.IsB B.out := rn7.inn.bB
  obtain ⟨ev, gp⟩ := grpHalf_gp (A := E.out) rn7.clean rn7.ent.reg sX7 bX7 sB7 bB7
  have iA := rn7.ent.ins _ hE
  have hL : ∀ d, (d ∈ h7.xJmp T.out ∨ d ∈ h7.xOut B.out) → ∃ b, S7 b ∧ h7.IsB b ∧ d ∈ h7.O b := by
    rintro d (k | k)
    · exact ⟨T.out, sX7, bX7, (mem_xJmp.mp k).1⟩
    · exact ⟨B.out, sB7, bB7, (mem_xOut.mp k).1⟩
  have nv : T.out ≠ h7.next := Nat.ne_of_lt (rn7.ent.reg.lt _ sX7)
  have OT : (h7.grpHalf E.out T.out B.out).1.O T.out = h7.O T.out := gp.O rn7.clean rn7.ent.reg sX7 bX7 nv
  have le3 := m3.next
  have le5 := m5.next
  have le6 := m6.next
  have le7 : h6.next ≤ h7.next := m7.next
  have le7' := m7.next
  have in7 : ∀ i, S7 i → (∃ F ∈ [E, T, B], F.S i) ∨ h.next ≤ i := by
    rintro i (k | k)
    · rcases new5 i k with ((k | k) | k) | k
      · rcases new2 i k with k | (k | k) | k
        · exact .inl ⟨E, by simp, k⟩
        · exact .inl ⟨B, by simp, k⟩
        · exact .inr k.1
        · exact .inr (by omega)
      · exact .inl ⟨T, by simp, k⟩
      · exact .inr (by omega)
      · exact .inr (by omega)
    · exact .inr (by omega)
  have old : ∀ i, (i < h.next ∧ ∀ F ∈ [E, T, B], ¬ F.S i) → ¬ S7 i := by
    intro i k q
    rcases in7 i q with ⟨F, m, p⟩ | q
    · exact k.2 F m p
    · omega
  refine ⟨h7, Ext S7 h7 (h7.grpHalf E.out T.out B.out).1, ?_, ?_⟩
  · rw [Heap.linkDo, q1, Option.bind_some, q2, Option.bind_some, q3, Option.bind_some, q4, Option.bind_some, q5, Option.bind_some, q6]; rfl
  rw [ev]
  refine W.step (Os := [E, T, B]) w (gp.clean rn7.clean rn7.ent.reg iA.sB) (by rw [gp.next]; omega) ?_ (e := a) (s := 0)
    ⟨gp.ent rn7.clean rn7.ent.reg rn7.ent hE hL, .inl sX7, gp.isB rn7.clean rn7.ent.reg bX7, ?_, by simp, ?_, ?_, fE.head⟩ ?_
  · refine (((((fr1 _ (fun i k => k.1) (fun i k => k.2 B (by simp))).trans (fr2 _ (fun i k => by have := k.1; omega) (fun i k => k.2 E (by simp)) ?_)).trans
      (m3.frame _ (fun i k => by have := k.1; omega) ?_)).trans (m5.frame _ (fun i k => by have := k.1; omega) ?_)).trans
      (m6.frame _ (fun i k => by have := k.1; omega) old)).trans ((m7.frame _ (fun i k => by have := k.1; omega) old).trans
      (gp.frame rn7.clean rn7.ent.reg iA.sB (fun i k => by have := k.1; omega) old))
    · exact fun i k q => old i k (.inl (m5.sub i (m3.sub i (sub2 i (.inr q)))))
    · exact fun i k q => old i k (.inl (m5.sub i q))
    · exact fun i k q => old i k (.inl q)
  · intro c mc
    rw [List.mem_singleton.mp mc]
    exact ⟨gp.ext rn7.clean rn7.ent.reg iA.sB, gp.isBvn rn7.clean rn7.ent.reg⟩
  · intro c ec
    cases ec
    exact ⟨dj, by rw [OT]; exact ej7.1, by rw [gp.edge]; exact ej7.2⟩
  · intro k ns q
    have r := all k ns q
    cases k with
    | pre => exact gp.pre rn7.clean rn7.ent.reg rn7.ent.se rn7.ent.ne r
    | ex x =>
      obtain ⟨d, md, k1, k2, p⟩ := r
      exact ⟨d, by rw [OT]; exact md, by rw [gp.edge]; exact k1, by rw [gp.edge]; exact k2, gp.pe rn7.clean rn7.ent.reg rn7.ent.se rn7.ent.ne p⟩
  · rintro i (k | k)
    · exact in7 i k
    · exact .inr (by omega)

/-- `link(F, EK_JMP, ET_NONE, EK_JMP, ET_NONE, B, LF_NONE)`, then `link(Y, EK_SEQ, ET_NONE, EK_SEQ, ET_NONE, B, LF_NONE)` for another block of the fragment. -/
theorem W.linkVia {h0 : Heap} {F : Fr} {Fs : List Fr} (w : W h0 h (F :: G :: Fs)) {b : Bool} (jF : F.jump = some b) {Y : Nat} (hY : Y ∈ F.blks) {C : Nat} (hC : C ∈ G.ins) :
    ∃ h1 h' S', h.link ω F.out .jmp {} .jmp {} C {} = some h1 ∧ h1.link ω Y .seq {} .seq {} C {} = some h' ∧ (∀ A ∈ F.ins, A ≠ G.out) ∧
      W h0 h' ({ S := S', ins := F.ins, out := G.out, blks := F.out :: G.out :: (F.ins ++ F.blks ++ G.blks), one := G.one, tidy := G.tidy, multi := G.multi, mark := G.mark, head := F.head, run := Seqd (F.run (.ex { t := true, f := true })) F G } :: Fs) := by
  obtain ⟨a, s1, f⟩ := w.frag F (by simp)
  obtain ⟨e, s2, g⟩ := w.frag G (by simp)
  have dis : ∀ i, F.S i → ¬ G.S i := (List.pairwise_cons.mp w.dis).1 G (by simp)
  have r := f.ent.reg.union g.ent.reg dis
  have i0 := g.ent.ins C hC
  have i : In h (Un F.S G.S) C e := ⟨.inr i0.sB, i0.bB, .inr i0.se, i0.ne, i0.ins, i0.seq⟩
  obtain ⟨h1, e1, m1, k1⟩ := link_em fair w.clean r (.inl f.sX) f.bX i (fk := .jmp) (ft := {}) (tk := .jmp) (tt := {}) rfl (fl := {}) rfl ⟨rfl, .inl (by simp)⟩
  have i1 := i.em m1
  obtain ⟨d, md, kd, _, _⟩ := f.jump b jF
  have ns := not_only i1 (k := .jmp) (by simp) (k1 ⟨d, md, kd, .inl rfl⟩)
  have sY : Un F.S G.S Y := .inl (f.blks Y hY).1
  have bY := (f.blks Y hY).2
  obtain ⟨h', e2, m2, _⟩ := link_em fair (m1.clean w.clean) (m1.reg r i.se i.ne w.clean) (.inl sY) ((m1.isB Y).mpr bY) i1 (fk := .seq) (ft := {})
    (tk := .seq) (tt := {}) rfl (fl := {}) rfl ⟨rfl, .inr (.inr (.inl ns))⟩
  have l := (m1.trans r i.se i.ne m2 w.clean).ls w.clean r g.ent.se g.ent.ne
  have hQ : ∀ d, (Cho h F.out .jmp {} d ∨ Cho h1 Y .seq {} d) → F.S d := by
    rintro d (k | k)
    · exact f.ent.reg.memO _ f.sX f.bX _ k.1
    · have := k.1
      rw [m1.O r i.se i.ne sY bY] at this
      exact f.ent.reg.memO _ (f.blks Y hY).1 bY _ this
  refine ⟨h1, h', _, e1, e2, fun A m k => dis A (f.ent.ins A m).sB (k ▸ g.sX), W.step (Os := [F, G]) w l.clean l.next (l.agree.mono ?_)
    (l.frag w.clean f g dis hQ (run := Seqd (F.run (.ex { t := true, f := true })) F G) ?_) ?_⟩
  · intro i k
    exact ⟨k.1, k.2 F (by simp), k.2 G (by simp)⟩
  · rintro k ns (⟨n1, n2, rfl, q, r⟩ | ⟨rfl, q⟩)
    · obtain ⟨d, md, k1, k2, p⟩ := f.run _ n1 q
      have q : Cho h F.out .jmp {} d := by
        rcases k2 with ⟨k, _⟩ | ⟨b, _, k, t⟩
        · cases k
        · exact ⟨md, ⟨k, .inl rfl⟩, k1⟩
      exact l.reachV g.ent.reg dis hQ f.ent.se f.ent.ne g.sX g.bX p (.inl q) (g.run k n2 r)
    · exact l.tAp a ns f.ent.se f.ent.ne (f.run .pre ns q)
  · rintro i ((k | k) | k)
    · exact .inl ⟨F, by simp, k⟩
    · exact .inl ⟨G, by simp, k⟩
    · exact .inr k.1

end

end Mole.Cfg
