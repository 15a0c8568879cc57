import Verif.Graph.CfgFork
import Verif.Graph.CfgBuild

/-! Loops. -/

namespace Mole.Cfg

/-- A walk from `a` that is about to enter `b`. -/
def PL (h : Heap) (a : Nat) (ns : List Nat) (b : Nat) : Prop := ∃ d, PE h a ns d ∧ (h.edge d).dst = some b

theorem PL.cat {h : Heap} {a b c : Nat} {ns ms : List Nat} : PL h a ns b → PL h b ms c → PL h a (ns ++ ms) c
  | ⟨_, p, e⟩, ⟨d, q, k⟩ => ⟨d, p.cat e q, k⟩

theorem PL.pre {h : Heap} {a b : Nat} {ns ms : List Nat} : PL h a ns b → Pre h b ms → Pre h a (ns ++ ms)
  | ⟨_, p, e⟩, q => p.catPre e q

theorem PL.reach {h : Heap} {a b X : Nat} {ns ms : List Nat} {k : Kd} : PL h a ns b → Reach h b X k ms → Reach h a X k (ns ++ ms)
  | ⟨_, p, e⟩, q => by
    cases k with
    | pre => exact p.catPre e q
    | ex x =>
      obtain ⟨d, md, k1, k2, k3⟩ := q
      exact ⟨d, md, k1, k2, p.cat e k3⟩

theorem Un.self (S : Nat → Prop) : Un S S = S := by
  funext i; exact propext ⟨fun k => k.elim id id, .inl⟩

section em

variable {h h' : Heap} {S : Nat → Prop} {to : Nat} {C : Nat → Prop} (m : EM h h' S to C) (c : Clean h) (r : Reg h S) (sto : S to) (nto : h.Ng to)

include m r sto nto

include c in
theorem EM.self : LS h h' S S to C := EM.ls (U := S) (V := S) c (by rw [Un.self]; exact r) sto nto (by rw [Un.self]; exact m)

omit r sto nto in
theorem EM.miss {d : Nat} (ld : d < h.next) (n : ¬ C d) : (h'.edge d).dst = (h.edge d).dst :=
  let ⟨_, _, l⟩ := m.ex; l.miss d ld n

omit r sto nto in
theorem EM.kind {d : Nat} (ld : d < h.next) : (h'.edge d).kind = (h.edge d).kind :=
  let ⟨_, _, l⟩ := m.ex; l.kind d ld

theorem EM.pl {a b : Nat} {ns : List Nat} (sa : S a) (ba : h.IsB a) (p : PL h a ns b) : PL h' a ns b := by
  obtain ⟨d, p, e⟩ := p
  refine ⟨d, m.pe r sto nto sa ba p, ?_⟩
  obtain ⟨x, w, _, md⟩ := p
  obtain ⟨sx, bx⟩ := w.inside r sa ba
  rw [m.miss (r.lt d (r.memO x sx bx d md)) (fun q => by rw [m.hang d q] at e; cases e)]; exact e

theorem EM.chosen {a d : Nat} {ns : List Nat} (sa : S a) (ba : h.IsB a) (p : PE h a ns d) (q : C d) : PL h' a ns to :=
  ⟨d, m.pe r sto nto sa ba p, m.hit r sto nto q⟩

include c in
theorem EM.reach {a X : Nat} {ns : List Nat} {k : Kd} (sa : S a) (na : h.Ng a) (sX : S X) (bX : h.IsB X)
    (nq : ∀ x, k = .ex x → ∀ d ∈ h.O X, x.ok (h.edge d) → ¬ C d) (q : Reach h a X k ns) : Reach h' a X k ns :=
  (m.self c r sto nto).reachU r sa na sX bX nq q

theorem EM.outlet {X s : Nat} (o : Out h S X s) (n : ¬ C s) : Out h' (Ext S h h') X s := by
  obtain ⟨x, ex, mx⟩ := o.live
  obtain ⟨sx, nx⟩ := r.srcO X o.sX o.bX s o.mem x ex
  have lt := fun d (k : d ∈ h.O X) => r.lt d (r.memO X o.sX o.bX d k)
  refine ⟨.inl o.sX, (m.isB X).mpr o.bX, by rw [m.O r sto nto o.sX o.bX]; exact o.mem, by rw [m.kind (lt s o.mem)]; exact o.kind,
    by rw [m.miss (lt s o.mem) n]; exact o.hang, ⟨x, by rw [m.src r sto nto o.sX o.bX o.mem]; exact ex, by rw [m.O r sto nto sx nx.isB]; exact mx⟩, ?_⟩
  intro d md k
  rw [m.O r sto nto o.sX o.bX] at md
  rw [m.kind (lt d md)] at k
  exact o.uniq d md k

theorem EM.multi {X s : Nat} (o : Out h S X s) (mu : Multi h s) : Multi h' s := by
  obtain ⟨x, ex, mx⟩ := o.live
  obtain ⟨sx, nx⟩ := r.srcO X o.sX o.bX s o.mem x ex
  obtain ⟨y, d, ne, e1, m1, e2, m2⟩ := mu
  rw [ex] at e1; cases e1
  refine ⟨x, d, ne, ?_, by rw [m.O r sto nto sx nx.isB]; exact mx, ?_, by rw [m.O r sto nto sx nx.isB]; exact m2⟩
  · rw [m.src r sto nto sx nx.isB mx]; exact ex
  · rw [m.src r sto nto sx nx.isB m2]; exact e2

/-- Edges into a block stay. -/
theorem EM.inI {b i : Nat} (sb : S b) (nb : h.Ng b) (mi : i ∈ h.I b) : i ∈ h'.I b ∧ (h'.edge i).kind = (h.edge i).kind := by
  refine ⟨?_, m.kind (r.lt i (r.memI b sb nb.isB i mi))⟩
  obtain ⟨_, _, l⟩ := m.ex
  by_cases q : b = to
  · rw [q] at mi ⊢; exact l.I i mi
  · rw [l.Ine (fun k => q (r.inj b to sb nb sto nto k))]; exact mi

theorem EM.inn {A b : Nat} (i : In h S A b) : In h' (Ext S h h') A b := by
  obtain ⟨d, md, k⟩ := i.seq
  obtain ⟨md', k'⟩ := m.inI r sto nto i.se i.ne md
  exact ⟨.inl i.sB, (m.isB A).mpr i.bB, .inl i.se, (m.ng b).mpr i.ne, by rw [m.blk]; exact i.ins, d, md', by rw [k']; exact k⟩

include c in
theorem EM.ent {ins : List Nat} {a : Nat} (f : Ent h S ins a) (ne : a ≠ to) : Ent h' (Ext S h h') ins a := by
  have l := m.self c r sto nto
  obtain ⟨i, ei, ki⟩ := f.fr.one
  have li := r.lt i (r.memI a f.se f.ne.isB i (by rw [ei]; simp))
  refine ⟨m.reg r sto nto c, .inl f.se, (m.ng a).mpr f.ne, fun A k => m.inn r sto nto (f.ins A k),
    ⟨⟨i, by rw [l.ins a (.inl f.se) f.ne ne]; exact ei, by rw [m.kind li]; exact ki⟩, ?_, l.own a (.inl f.se) f.ne ne f.fr.own⟩⟩
  intro b sb bb d md ed
  have sb : Ext (Un S S) h h' b := by rw [Un.self]; exact sb
  obtain ⟨sb, bb⟩ := l.old c sb bb
  rcases l.lead b sb bb d md a ed with k | ⟨b', sb', bb', md', ed'⟩
  · exact ne k
  · exact f.fr.lead b' (sb'.elim id id) bb' d md' ed'

include c in
theorem EM.frame {T : Nat → Prop} (lt : ∀ i, T i → i < h.next) (dS : ∀ i, T i → ¬ S i) : Agree h h' T :=
  (m.self c r sto nto).frame lt dS dS

end em

theorem Ji.reach {h h' : Heap} {S : Nat → Prop} {B e d : Nat} (j : Ji h h' e d) (r : Reg h S) (i : In h S B e) {a X : Nat} {k : Kd} {ns : List Nat} (sa : S a) (ba : h.IsB a)
    (sX : S X) (bX : h.IsB X) (q : Reach h a X k ns) : Reach h' a X k ns := by
  cases k with
  | pre => exact j.pre r i sa ba q
  | ex x =>
    obtain ⟨z, m, k1, k2, k3⟩ := q
    have q := j.eq r i (r.memO X sX bX z m)
    exact ⟨z, by rw [j.O r i sX bX]; exact m, by rw [q]; exact k1, by rw [q]; exact k2, j.pe r i sa ba k3⟩

/-- Kind and tag of the linked edge `s` were changed. -/
structure Mk (h h' : Heap) (s : Nat) : Prop where
  next : h'.next = h.next
  blk : h'.blk = h.blk
  emap : h'.emap = h.emap
  edge : ∀ d, d ≠ s → h'.edge d = h.edge d
  src : (h'.edge s).src = (h.edge s).src
  dst : (h'.edge s).dst = (h.edge s).dst

theorem Mk.set (h : Heap) (s : Nat) (k : EK) (t : Tag) : Mk h (h.setEdge s { h.edge s with kind := k, tag := t }) s := by
  have e : (h.setEdge s { h.edge s with kind := k, tag := t }).edge s = { h.edge s with kind := k, tag := t } := upd_self _ _ _
  exact ⟨rfl, rfl, rfl, fun d n => upd_ne _ _ n, by rw [e], by rw [e]⟩

section mk

variable {h h' : Heap} {S : Nat → Prop} {X s : Nat} (m : Mk h h' s)

include m

theorem Mk.srcs (d : Nat) : (h'.edge d).src = (h.edge d).src := by
  by_cases k : d = s
  · rw [k]; exact m.src
  · rw [m.edge d k]

theorem Mk.dsts (d : Nat) : (h'.edge d).dst = (h.edge d).dst := by
  by_cases k : d = s
  · rw [k]; exact m.dst
  · rw [m.edge d k]

theorem Mk.O (b : Nat) : h'.O b = h.O b := by simp only [Heap.O, m.blk, m.emap]

theorem Mk.I (b : Nat) : h'.I b = h.I b := by simp only [Heap.I, m.blk, m.emap]

theorem Mk.ng (b : Nat) : h'.Ng b ↔ h.Ng b := by simp only [Heap.Ng, m.blk]

theorem Mk.isB (b : Nat) : h'.IsB b ↔ h.IsB b := by simp only [Heap.IsB, m.blk]

theorem Mk.clean (c : Clean h) : Clean h' := by
  intro i k
  rw [m.isB]; exact c i (by rw [m.next] at k; exact k)

theorem Mk.reg (r : Reg h S) : Reg h' S := by
  refine ⟨?_, ?_, ?_, ?_, ?_, ?_, ?_, ?_, ?_, ?_, ?_, ?_⟩
  · intro i k; rw [m.next]; exact r.lt i k
  · intro b s k; rw [m.blk]; exact r.ins b s ((m.isB b).mp k)
  · intro b s k; rw [m.blk]; exact r.outs b s ((m.isB b).mp k)
  · intro b s k; rw [m.I]; exact r.memI b s ((m.isB b).mp k)
  · intro b s k; rw [m.O]; exact r.memO b s ((m.isB b).mp k)
  · intro b s k d; rw [m.I, m.srcs]; intro q x e
    rw [m.ng]; exact r.srcI b s ((m.isB b).mp k) d q x e
  · intro b s k d; rw [m.O, m.srcs]; intro q x e
    rw [m.ng]; exact r.srcO b s ((m.isB b).mp k) d q x e
  · intro b s k d; rw [m.O, m.dsts]; intro q x e
    rw [m.ng]; exact r.dstO b s ((m.isB b).mp k) d q x e
  · intro b s k d; rw [m.I, m.dsts]; exact r.insDst b s ((m.ng b).mp k) d
  · intro a b s k t q; rw [m.blk]; exact r.inj a b s ((m.ng a).mp k) t ((m.ng b).mp q)
  · intro a b s k t q; rw [m.blk]; exact r.sep a b s ((m.isB a).mp k) t ((m.isB b).mp q)
  · intro a b s k t q d; rw [m.I, m.O]; exact r.sepE a b s ((m.isB a).mp k) t ((m.isB b).mp q) d

theorem Mk.walk {a y : Nat} {ns : List Nat} (w : Walk h a ns y) : Walk h' a ns y := by
  induction w with
  | one => rw [← m.blk]; exact .one
  | step w md e ih =>
    rw [← m.blk]
    exact ih.step (by rw [m.O]; exact md) (by rw [m.dsts]; exact e)

theorem Mk.pe {a d : Nat} {ns : List Nat} (w : PE h a ns d) : PE h' a ns d := by
  obtain ⟨y, w, ey, md⟩ := w
  exact ⟨y, m.walk w, by rw [m.srcs]; exact ey, by rw [m.O]; exact md⟩

theorem Mk.pre {a : Nat} {ns : List Nat} (w : Pre h a ns) : Pre h' a ns := by
  obtain ⟨y, v, w, p⟩ := w
  exact ⟨y, v, m.walk w, p⟩

theorem Mk.pl {a b : Nat} {ns : List Nat} (w : PL h a ns b) : PL h' a ns b := by
  obtain ⟨d, p, e⟩ := w
  exact ⟨d, m.pe p, by rw [m.dsts]; exact e⟩

theorem Mk.reach {a X : Nat} {k : Kd} {ns : List Nat} (ls : (h.edge s).dst ≠ none) (q : Reach h a X k ns) : Reach h' a X k ns := by
  cases k with
  | pre => exact m.pre q
  | ex x =>
    obtain ⟨d, md, k1, k2, k3⟩ := q
    have : d ≠ s := fun q => ls (by rw [← q]; exact k1)
    exact ⟨d, by rw [m.O]; exact md, by rw [m.dsts]; exact k1, by rw [m.edge d this]; exact k2, m.pe k3⟩

/-- The edge leaves a block: it is not one of those into a block. -/
theorem Mk.ent {ins : List Nat} {a : Nat} (sX : S X) (bX : h.IsB X) (ms : s ∈ h.O X) (f : Ent h S ins a) : Ent h' S ins a := by
  have no : ∀ b, S b → h.IsB b → ∀ d ∈ h.I b, h'.edge d = h.edge d := by
    intro b sb bb d md
    exact m.edge d (fun q => f.reg.sepE b X sb bb sX bX d md (q ▸ ms))
  obtain ⟨i, ei, ki⟩ := f.fr.one
  refine ⟨m.reg f.reg, f.se, (m.ng a).mpr f.ne, ?_, ⟨i, by rw [m.I]; exact ei, by rw [no a f.se f.ne.isB i (by rw [ei]; simp)]; exact ki⟩, ?_, ?_⟩
  · intro A k
    have j := f.ins A k
    obtain ⟨d, md, kd⟩ := j.seq
    exact ⟨j.sB, (m.isB A).mpr j.bB, j.se, (m.ng a).mpr j.ne, by rw [m.blk]; exact j.ins, d, by rw [m.I]; exact md, by rw [no a j.se j.ne.isB d md]; exact kd⟩
  · intro b sb bb d
    rw [m.O, m.dsts]; exact f.fr.lead b sb ((m.isB b).mp bb) d
  · intro d
    rw [m.O, m.srcs]; exact f.fr.own d

theorem Mk.frame {T : Nat → Prop} (n : ¬ T s) : Agree h h' T :=
  ⟨fun i _ => by rw [m.blk], fun i k => m.edge i (fun q => n (q ▸ k)), fun i _ => by rw [m.emap]⟩

end mk

theorem grpHalf_gp {h : Heap} {S : Nat → Prop} (c : Clean h) (r : Reg h S) {A X Y : Nat} (sX : S X) (bX : h.IsB X) (sY : S Y) (bY : h.IsB Y) :
    (h.grpHalf A X Y).2 = h.next ∧ Gp h (h.grpHalf A X Y).1 S A h.next (fun d => d ∈ h.xJmp X ∨ d ∈ h.xOut Y) := by
  refine ⟨rfl, ?_⟩
  obtain ⟨g, o⟩ := newGroup_gp (h := h) (S := S) (A := A)
  have nX : X ≠ h.next := Nat.ne_of_lt (r.lt X sX)
  have nY : Y ≠ h.next := Nat.ne_of_lt (r.lt Y sY)
  let h1 := (h.newGroup (h.blk A).ins).1
  have e1 : h1.xJmp X = h.xJmp X := by
    have := g.O c r sX bX nX
    simp only [Heap.O] at this
    show (h1.emap (h1.blk X).outs).filter _ = _
    rw [this]; rfl
  have g1 := g.add o (h1.xJmp X)
  let h2 := h1.addOutlets h.next (h1.xJmp X)
  have e2 : h2.xOut Y = h.xOut Y := by
    have := g1.O c r sY bY nY
    simp only [Heap.O] at this
    show (h2.emap (h2.blk Y).outs).filter _ = _
    rw [this]; rfl
  have g2 := g1.add o (h2.xOut Y)
  have eL : (fun d => ((False ∨ d ∈ h1.xJmp X) ∨ d ∈ h2.xOut Y)) = fun d => d ∈ h.xJmp X ∨ d ∈ h.xOut Y := by
    funext d; rw [e1, e2]; simp
  rw [eL] at g2
  exact g2

/-- ctrlflow.go 944-953: the links made for a `while` whose test has been given its jump. -/
def Heap.linkWhile (ω : Order) (h : Heap) (enter test body : Nat) : Option Heap :=
  (h.newJmpIn ω test { loop := true }).bind fun h =>
  (h.link ω enter .seq {} .seq {} test {}).bind fun h =>
  (h.linkThen ω test body).bind fun h =>
  (h.link ω body .jmp { loop := true } .jmp { loop := true } test {}).bind fun h =>
  (h.link ω body .seq {} .seq {} test {}).bind fun h =>
  h.markLoop ω body

/-- The walks around a loop, from its test. -/
inductive LoopRun (T B : Fr) : Kd → List Nat → Prop
  | exit {ns : List Nat} {x : Ex} : T.run (.ex { f := true }) ns → x.f = true → LoopRun T B (.ex x) ns
  | test {ns : List Nat} : T.run .pre ns → LoopRun T B .pre ns
  | body {ns ms : List Nat} : T.run (.ex { q := true, t := true }) ns → B.run .pre ms → LoopRun T B .pre (ns ++ ms)
  | again {ns ms ls : List Nat} {k : Kd} : T.run (.ex { q := true, t := true }) ns → B.run .seq ms → LoopRun T B k ls → LoopRun T B k (ns ++ ms ++ ls)

/-- The walks through a loop. -/
def WhileRun (E T B : Fr) (k : Kd) (ns : List Nat) : Prop :=
  (∃ n1 n2, ns = n1 ++ n2 ∧ E.run .seq n1 ∧ LoopRun T B k n2) ∨ (k = .pre ∧ E.run .pre ns)

theorem W.while {ω : Order} (fair : ω.Fair) {h0 h : Heap} {E T B : Fr} {Fs : List Fr} (w : W h0 h (E :: T :: B :: Fs)) (oE : E.one = true) (oT : T.one = true)
    (oB : B.one = true) (mT : T.multi = true) (jT : T.jump = some false) (hE : E.out ∈ E.ins) (hT : T.out ∈ T.ins) (hB : B.out ∈ B.ins) :
    ∃ h' S', h.linkWhile ω E.out T.out B.out = some h' ∧
      W h0 (h'.grpHalf E.out T.out B.out).1 ({ S := S', ins := (h'.grpHalf E.out T.out B.out).2 :: E.ins, out := (h'.grpHalf E.out T.out B.out).2, one := false,
                                               jump := some false, head := E.head, run := WhileRun E T B } :: Fs) := by
  obtain ⟨a, sE, fE⟩ := w.frag E (by simp)
  obtain ⟨t0, sT, fT⟩ := w.frag T (by simp)
  obtain ⟨b0, sB, fB⟩ := w.frag B (by simp)
  have dET : ∀ i, E.S i → ¬ T.S i := (List.pairwise_cons.mp w.dis).1 T (by simp)
  have dEB : ∀ i, E.S i → ¬ B.S i := (List.pairwise_cons.mp w.dis).1 B (by simp)
  have dTB : ∀ i, T.S i → ¬ B.S i := (List.pairwise_cons.mp (List.pairwise_cons.mp w.dis).2).1 B (by simp)
  -- the incoming jump
  have rT := fT.ent.reg
  have iT := fT.ent.ins _ hT
  obtain ⟨h1, q1, j⟩ := newJmpIn_ji fair rT iT { loop := true }
  have c1 := j.clean w.clean
  have n1 : h.next ≤ h1.next := by rw [j.next]; omega
  have aE1 : Agree h h1 E.S := j.frame rT iT fE.ent.reg.lt (fun i k q => dET i k q)
  have aB1 : Agree h h1 B.S := j.frame rT iT fB.ent.reg.lt (fun i k q => dTB i q k)
  have fE1 := fE.agree aE1 n1
  have fB1 := fB.agree aB1 n1
  have rT1 := j.reg rT iT w.clean
  have iT1 := j.inn rT iT iT
  have oT1 := j.out rT iT (fT.last oT).out
  have sTO : T.S T.out := fT.sX
  have muT1 : Multi h1 sT := by
    obtain ⟨x, d, ne, e1, m1, e2, m2⟩ := (fT.last oT).multi mT
    obtain ⟨x', ex, mx, sx, nx⟩ := (fT.last oT).src rT
    rw [e1] at ex; cases ex
    exact ⟨x, d, ne, by rw [j.eq rT iT (rT.memO x sx nx.isB _ m1)]; exact e1, by rw [j.O rT iT sx nx.isB]; exact m1,
      by rw [j.eq rT iT (rT.memO x sx nx.isB _ m2)]; exact e2, by rw [j.O rT iT sx nx.isB]; exact m2⟩
  have runT1 : ∀ k ns, T.run k ns → Reach h1 t0 T.out k ns := fun k ns q => j.reach rT iT fT.ent.se fT.ent.ne.isB fT.sX fT.bX (fT.run k ns q)
  obtain ⟨dj, mj, kj, hj, tj⟩ := fT.jump false jT
  have lj := rT.memO _ fT.sX fT.bX dj mj
  have ej := j.eq rT iT lj
  let T1 := Ext T.S h h1
  have dE1 : ∀ i, E.S i → ¬ T1 i := by
    rintro i k (q | q)
    · exact dET i k q
    · have := fE.ent.reg.lt i k; omega
  have dB1 : ∀ i, T1 i → ¬ B.S i := by
    rintro i (q | q) k
    · exact dTB i q k
    · have := fB.ent.reg.lt i k; omega
  -- into the test
  have r1 := fE1.ent.reg.union rT1 dE1
  have iT1' : In h1 (Un E.S T1) T.out t0 := ⟨.inr iT1.sB, iT1.bB, .inr iT1.se, iT1.ne, iT1.ins, iT1.seq⟩
  obtain ⟨h2, q2, m1, _⟩ := link_em fair c1 r1 (.inl fE1.sX) fE1.bX iT1' (fk := .seq) (ft := {}) (tk := .seq) (tt := {}) rfl (fl := {}) rfl
    ⟨rfl, .inr (.inr (.inl (j.not_only rT iT)))⟩
  rw [(fE1.last oE).out.cho] at m1
  have l1 := m1.ls c1 r1 iT1.se iT1.ne
  have c2 := l1.clean
  let S2 := Ext (Un E.S T1) h1 h2
  have st1 : Un E.S T1 t0 := .inr iT1.se
  have en2 : Ent h2 S2 E.ins a := l1.ent c1 rT1 iT1.se dE1 fE1.ent
  have r2 := en2.reg
  have iT2 := m1.inn r1 st1 iT1.ne iT1'
  have hQ1 : ∀ d, d = sE → E.S d := by rintro d rfl; exact fE1.ent.reg.memO _ fE1.sX fE1.bX _ (fE1.last oE).out.mem
  have oT2 : Out h2 S2 T.out sT := l1.outV rT1 dE1 hQ1 oT1
  have oT1' : Out h1 (Un E.S T1) T.out sT := ⟨.inr oT1.sX, oT1.bX, oT1.mem, oT1.kind, oT1.hang, oT1.live, oT1.uniq⟩
  have muT2 := m1.multi r1 st1 iT1.ne oT1' muT1
  have sTo : Un E.S T1 T.out := .inr (.inl fT.sX)
  have bTo : h1.IsB T.out := iT1.bB
  have OT : h2.O T.out = h.O T.out := by rw [m1.O r1 st1 iT1.ne sTo bTo, j.O rT iT fT.sX fT.bX]
  have runT2 : ∀ k ns, T.run k ns → Reach h2 t0 T.out k ns := by
    intro k ns q
    refine m1.reach c1 r1 st1 iT1.ne st1 iT1.ne sTo bTo ?_ (runT1 k ns q)
    rintro x _ d md _ rfl
    rw [j.O rT iT fT.sX fT.bX] at md
    exact dE1 d (hQ1 d rfl) (.inl (rT.memO _ fT.sX fT.bX d md))
  have runE2 : ∀ ns, E.run .seq ns → PL h2 a ns t0 := fun ns q =>
    m1.chosen r1 st1 iT1.ne (.inl fE1.ent.se) fE1.ent.ne.isB ((fE1.run _ ns q).seq (fE1.last oE).out) rfl
  have preE2 : ∀ ns, E.run .pre ns → Pre h2 a ns := fun ns q => m1.pre r1 st1 iT1.ne (.inl fE1.ent.se) fE1.ent.ne.isB (fE1.run _ ns q)
  have jI1 : h.next ∈ h1.I t0 := by rw [j.I]; simp
  have jI2 := m1.inI r1 st1 iT1.ne st1 iT1.ne jI1
  have aB2 : Agree h1 h2 B.S := l1.agree.mono (fun i k => ⟨fB1.ent.reg.lt i k, fun q => dEB i q k, fun q => dB1 i q k⟩)
  have fB2 := fB1.agree aB2 l1.next
  have dB2 : ∀ i, S2 i → ¬ B.S i := by
    rintro i ((q | q) | q) k
    · exact dEB i q k
    · exact dB1 i q k
    · have := fB1.ent.reg.lt i k; omega
  have ej2 : (h2.edge dj).kind = .jmp ∧ (h2.edge dj).dst = none ∧ (h2.edge dj).tag.on false = true := by
    have l : dj < h1.next := rT1.lt dj (.inl lj)
    have mj1 : dj ∈ h1.O T.out := by rw [j.O rT iT fT.sX fT.bX]; exact mj
    refine ⟨by rw [m1.kind l, ej]; exact kj, ?_, ?_⟩
    · rw [m1.miss l (fun q => dE1 dj (hQ1 dj q) (.inl lj)), ej]; exact hj
    · rw [Tag.on_like (m1.like r1 st1 iT1.ne sTo bTo mj1), ej]; exact tj
  -- into the body
  obtain ⟨xT, exT, noT⟩ := muT2.no
  have iB2 := fB2.ent.ins _ hB
  obtain ⟨h3a, h3, q3a, q3, m2⟩ := link2r_em fair c2 r2 fB2.ent.reg dB2 oT2 exT noT iB2 { t := true } {} {} rfl
  have r2' := r2.union fB2.ent.reg dB2
  have sb2 : Un S2 B.S b0 := .inr fB2.ent.se
  have nb2 := fB2.ent.ne
  have c3 := m2.clean c2
  have r3 := m2.reg r2' sb2 nb2 c2
  let S3 := Ext (Un S2 B.S) h2 h3
  have l2 := m2.ls c2 r2' fB2.ent.se nb2
  have en3 : Ent h3 S3 E.ins a := l2.ent c2 fB2.ent.reg fB2.ent.se dB2 en2
  have iT2' : In h2 (Un S2 B.S) T.out t0 := ⟨.inl iT2.sB, iT2.bB, .inl iT2.se, iT2.ne, iT2.ins, iT2.seq⟩
  have iT3 := m2.inn r2' sb2 nb2 iT2'
  have st2 : Un S2 B.S t0 := .inl (.inl st1)
  have sto2 : Un S2 B.S T.out := .inl (.inl sTo)
  have bto2 : h2.IsB T.out := iT2.bB
  have hQ2 : ∀ d, (d = sT ∨ Cho h2 T.out .jmp { t := true } d) → S2 d := by
    rintro d (rfl | k)
    · exact r2.memO _ oT2.sX oT2.bX _ oT2.mem
    · exact r2.memO _ oT2.sX oT2.bX _ k.1
  have nf : ∀ d, (h2.edge d).kind = .jmp → (h2.edge d).tag.on false = true → ¬ (d = sT ∨ Cho h2 T.out .jmp { t := true } d) := by
    rintro d k on (rfl | z)
    · rw [oT2.kind] at k; cases k
    · have := z.2.1.2
      simp only [Tag.on, Tag.bit, Bool.not_false, Bool.and_eq_true, Bool.not_eq_true'] at on
      simp [Tag.isNone, Tag.meets, on] at this
  have okf : ∀ e : Edge, Ex.ok { f := true } e → e.kind = .jmp ∧ e.tag.on false = true := by
    rintro e (⟨k, _⟩ | ⟨b, k, k2⟩)
    · cases k
    · cases b with
      | true => cases k
      | false => exact k2
  have exit3 : ∀ ns, T.run (.ex { f := true }) ns → Reach h3 t0 T.out (.ex { f := true }) ns := by
    intro ns q
    refine m2.reach c2 r2' sb2 nb2 st2 iT2.ne sto2 bto2 ?_ (runT2 _ ns q)
    rintro x ex d md ok
    cases ex
    exact nf d (okf _ ok).1 (okf _ ok).2
  have preT3 : ∀ ns, T.run .pre ns → Pre h3 t0 ns := fun ns q => m2.pre r2' sb2 nb2 st2 iT2.ne.isB (runT2 _ ns q)
  have thru3 : ∀ ns, T.run (.ex { q := true, t := true }) ns → PL h3 t0 ns b0 := by
    intro ns q
    obtain ⟨d, md, k1, k2, p⟩ := runT2 _ ns q
    refine m2.chosen r2' sb2 nb2 st2 iT2.ne.isB p ?_
    rcases k2 with ⟨_, k2⟩ | ⟨b, k, k2, k3⟩
    · exact .inl (oT2.uniq d md k2)
    · cases b with
      | false => cases k
      | true => exact .inr ⟨md, ⟨k2, .inr (Tag.meets_on k3 rfl)⟩, k1⟩
  have runE3 : ∀ ns, E.run .seq ns → PL h3 a ns t0 := fun ns q => m2.pl r2' sb2 nb2 (.inl en2.se) en2.ne.isB (runE2 ns q)
  have preE3 : ∀ ns, E.run .pre ns → Pre h3 a ns := fun ns q => m2.pre r2' sb2 nb2 (.inl en2.se) en2.ne.isB (preE2 ns q)
  have jI3 := m2.inI r2' sb2 nb2 st2 iT2.ne jI2.1
  have oB3 := l2.outV fB2.ent.reg dB2 hQ2 (fB2.last oB).out
  have runB3 : ∀ ns, B.run .seq ns → PE h3 b0 ns sB := fun ns q => m2.pe r2' sb2 nb2 sb2 nb2.isB ((fB2.run _ ns q).seq (fB2.last oB).out)
  have preB3 : ∀ ns, B.run .pre ns → Pre h3 b0 ns := fun ns q => m2.pre r2' sb2 nb2 sb2 nb2.isB (fB2.run _ ns q)
  have OT3 : h3.O T.out = h.O T.out := by rw [m2.O r2' sb2 nb2 sto2 bto2, OT]
  have OB3 : h3.O B.out = h.O B.out := by
    rw [m2.O r2' sb2 nb2 (.inr fB2.sX) fB2.bX, aB2.O fB1.ent.reg fB1.sX fB1.bX, aB1.O fB.ent.reg fB.sX fB.bX]
  have ej3 : (h3.edge dj).kind = .jmp ∧ (h3.edge dj).dst = none ∧ (h3.edge dj).tag.on false = true := by
    have mj2 : dj ∈ h2.O T.out := by rw [OT]; exact mj
    have l : dj < h2.next := r2.lt dj (r2.memO _ oT2.sX oT2.bX _ mj2)
    exact ⟨by rw [m2.kind l]; exact ej2.1, by rw [m2.miss l (nf dj ej2.1 ej2.2.2)]; exact ej2.2.1, by rw [Tag.on_like (m2.like r2' sb2 nb2 sto2 bto2 mj2)]; exact ej2.2.2⟩
  have apart : ∀ d, d ∈ h3.O T.out → d ∈ h3.O B.out → False := by
    intro d p q
    rw [OT3] at p; rw [OB3] at q
    exact dTB d (rT.memO _ fT.sX fT.bX d p) (fB.ent.reg.memO _ fB.sX fB.bX d q)
  -- jumps back
  have st3 : S3 t0 := iT3.se
  have nt3 := iT3.ne
  have sb3 : S3 b0 := .inl sb2
  have bb3 : h3.IsB b0 := (m2.isB _).mpr nb2.isB
  have sto3 : S3 T.out := iT3.sB
  have bto3 : h3.IsB T.out := iT3.bB
  obtain ⟨h4, q4, m3, _⟩ := link_em fair c3 r3 oB3.sX oB3.bX iT3 (fk := .jmp) (ft := { loop := true }) (tk := .jmp) (tt := { loop := true }) rfl (fl := {}) rfl
    ⟨rfl, .inl (by simp)⟩
  have c4 := m3.clean c3
  have r4 := m3.reg r3 st3 nt3 c3
  have nat : a ≠ t0 := fun q => dE1 a fE1.ent.se (q ▸ iT1.se)
  have en4 := m3.ent c3 r3 st3 nt3 en3 nat
  have iT4 := m3.inn r3 st3 nt3 iT3
  have oB4 := m3.outlet r3 st3 nt3 oB3 (fun q => by have := q.2.1.1; rw [oB3.kind] at this; cases this)
  have jI4 := m3.inI r3 st3 nt3 st3 nt3 jI3.1
  have exit4 : ∀ ns, T.run (.ex { f := true }) ns → Reach h4 t0 T.out (.ex { f := true }) ns := fun ns q =>
    m3.reach c3 r3 st3 nt3 st3 nt3 sto3 bto3 (fun _ _ d md _ z => apart d md z.1) (exit3 ns q)
  have OT4 : h4.O T.out = h3.O T.out := m3.O r3 st3 nt3 sto3 bto3
  have OB4 : h4.O B.out = h3.O B.out := m3.O r3 st3 nt3 oB3.sX oB3.bX
  have mj3 : dj ∈ h3.O T.out := by rw [OT3]; exact mj
  have ej4 : (h4.edge dj).kind = .jmp ∧ (h4.edge dj).dst = none ∧ (h4.edge dj).tag.on false = true := by
    have l : dj < h3.next := r3.lt dj (r3.memO _ sto3 bto3 _ mj3)
    exact ⟨by rw [m3.kind l]; exact ej3.1, by rw [m3.miss l (fun z => apart dj mj3 z.1)]; exact ej3.2.1, by rw [Tag.on_like (m3.like r3 st3 nt3 sto3 bto3 mj3)]; exact ej3.2.2⟩
  -- back
  have st4 := iT4.se
  have nt4 := iT4.ne
  have no : h4.onlySeqIn T.out = false := not_only iT4 (k := .jmp) (by simp) ⟨h.next, jI4.1, by rw [jI4.2, jI3.2, jI2.2]; exact j.kind⟩
  obtain ⟨h5, q5, m4, _⟩ := link_em fair c4 r4 oB4.sX oB4.bX iT4 (fk := .seq) (ft := {}) (tk := .seq) (tt := {}) rfl (fl := {}) rfl
    ⟨rfl, .inr (.inr (.inl no))⟩
  rw [oB4.cho] at m4
  have c5 := m4.clean c4
  have r5 := m4.reg r4 st4 nt4 c4
  have en5 := m4.ent c4 r4 st4 nt4 en4 nat
  have sto4 := iT4.sB
  have bto4 := iT4.bB
  have ns4 : ∀ d ∈ h4.O T.out, ¬ d = sB := by
    rintro d md rfl
    rw [OT4] at md
    exact apart d md (by rw [← OB4]; exact oB4.mem)
  have exit5 : ∀ ns, T.run (.ex { f := true }) ns → Reach h5 t0 T.out (.ex { f := true }) ns := fun ns q =>
    m4.reach c4 r4 st4 nt4 st4 nt4 sto4 bto4 (fun _ _ d md _ z => ns4 d md z) (exit4 ns q)
  have back : ∀ ns, B.run .seq ns → PL h5 b0 ns t0 := fun ns q =>
    m4.chosen r4 st4 nt4 (.inl sb3) ((m3.isB _).mpr bb3) (m3.pe r3 st3 nt3 sb3 bb3 (runB3 ns q)) rfl
  have preB5 : ∀ ns, B.run .pre ns → Pre h5 b0 ns := fun ns q =>
    m4.pre r4 st4 nt4 (.inl sb3) ((m3.isB _).mpr bb3) (m3.pre r3 st3 nt3 sb3 bb3 (preB3 ns q))
  have preT5 : ∀ ns, T.run .pre ns → Pre h5 t0 ns := fun ns q => m4.pre r4 st4 nt4 st4 nt4.isB (m3.pre r3 st3 nt3 st3 nt3.isB (preT3 ns q))
  have thru5 : ∀ ns, T.run (.ex { q := true, t := true }) ns → PL h5 t0 ns b0 := fun ns q => m4.pl r4 st4 nt4 st4 nt4.isB (m3.pl r3 st3 nt3 st3 nt3.isB (thru3 ns q))
  have runE5 : ∀ ns, E.run .seq ns → PL h5 a ns t0 := fun ns q => m4.pl r4 st4 nt4 en4.se en4.ne.isB (m3.pl r3 st3 nt3 en3.se en3.ne.isB (runE3 ns q))
  have preE5 : ∀ ns, E.run .pre ns → Pre h5 a ns := fun ns q => m4.pre r4 st4 nt4 en4.se en4.ne.isB (m3.pre r3 st3 nt3 en3.se en3.ne.isB (preE3 ns q))
  have OB5 : h5.O B.out = h4.O B.out := m4.O r4 st4 nt4 oB4.sX oB4.bX
  have OT5 : h5.O T.out = h4.O T.out := m4.O r4 st4 nt4 sto4 bto4
  have mj4 : dj ∈ h4.O T.out := by rw [OT4]; exact mj3
  have lB4 := fun d (k : d ∈ h4.O B.out) => r4.lt d (r4.memO _ oB4.sX oB4.bX d k)
  have ej5 : (h5.edge dj).kind = .jmp ∧ (h5.edge dj).dst = none ∧ (h5.edge dj).tag.on false = true := by
    have l : dj < h4.next := r4.lt dj (r4.memO _ sto4 bto4 _ mj4)
    exact ⟨by rw [m4.kind l]; exact ej4.1, by rw [m4.miss l (ns4 dj mj4)]; exact ej4.2.1, by rw [Tag.on_like (m4.like r4 st4 nt4 sto4 bto4 mj4)]; exact ej4.2.2⟩
  have hit5 : (h5.edge sB).dst = some t0 := m4.hit r4 st4 nt4 rfl
  -- the mark
  have kB5 : (h5.edge sB).kind = .seq := by rw [m4.kind (lB4 sB oB4.mem)]; exact oB4.kind
  have mB5 : sB ∈ h5.O B.out := by rw [OB5]; exact oB4.mem
  obtain ⟨y, ey⟩ := pick_isSome fair (site := 11) (p := fun e => decide (e.kind = EK.seq)) (m := (h5.blk B.out).outs) mB5 (by simpa using kB5)
  obtain ⟨my, ky⟩ := pick_some fair ey
  have ys : y = sB := by
    have my : y ∈ h5.O B.out := my
    rw [OB5] at my
    have ky : (h5.edge y).kind = .seq := by simpa using ky
    rw [m4.kind (lB4 y my)] at ky
    exact oB4.uniq y my ky
  rw [ys] at ey
  let h6 := h5.setEdge sB { h5.edge sB with kind := .jmp, tag := (h5.edge sB).tag.withLoop }
  have q6 : h5.markLoop ω B.out = some h6 := by
    rw [Heap.markLoop, Heap.outSeq, ey]; rfl
  have mk : Mk h5 h6 sB := Mk.set h5 sB .jmp _
  have c6 := mk.clean c5
  let S5 := Ext (Ext S3 h3 h4) h4 h5
  have sB5 : S5 B.out := .inl oB4.sX
  have bB5 : h5.IsB B.out := (m4.isB _).mpr oB4.bX
  have en6 : Ent h6 S5 E.ins a := mk.ent sB5 bB5 mB5 en5
  have sT5 : S5 T.out := .inl sto4
  have bT6 : h6.IsB T.out := (mk.isB _).mpr ((m4.isB _).mpr bto4)
  have bB6 : h6.IsB B.out := (mk.isB _).mpr bB5
  have loop : ∀ k ns, LoopRun T B k ns → Reach h6 t0 T.out k ns := by
    intro k ns q
    induction q with
    | @exit ns x q xf =>
      obtain ⟨d, md, k1, k2, p⟩ := mk.reach (by rw [hit5]; simp) (exit5 ns q)
      exact ⟨d, md, k1, .inr ⟨false, xf, okf _ k2⟩, p⟩
    | test q => exact mk.pre (preT5 _ q)
    | body q z => exact (mk.pl (thru5 _ q)).pre (mk.pre (preB5 _ z))
    | again q z _ ih => exact ((mk.pl (thru5 _ q)).cat (mk.pl (back _ z))).reach ih
  have all : ∀ k ns, WhileRun E T B k ns → Reach h6 a T.out k ns := by
    rintro k ns (⟨n1, n2, rfl, q, z⟩ | ⟨rfl, q⟩)
    · exact (mk.pl (runE5 _ q)).reach (loop k n2 z)
    · exact mk.pre (preE5 _ q)
  have seqT : ∀ d ∈ h6.O T.out, (h6.edge d).dst = none → (h6.edge d).kind = .seq → False := by
    intro d md hd kd
    rw [mk.O, OT5] at md
    have ne : d ≠ sB := ns4 d md
    rw [mk.edge d ne, m4.kind (r4.lt d (r4.memO _ sto4 bto4 d md))] at kd
    rw [mk.edge d ne, m4.miss (r4.lt d (r4.memO _ sto4 bto4 d md)) ne] at hd
    rw [OT4] at md
    have l3 := r3.lt d (r3.memO _ sto3 bto3 d md)
    rw [m3.kind l3] at kd
    rw [m3.miss l3 (fun z => apart d md z.1)] at hd
    rw [m2.O r2' sb2 nb2 sto2 bto2] at md
    have l2' := r2.lt d (r2.memO _ oT2.sX oT2.bX d md)
    rw [m2.kind l2'] at kd
    have := oT2.uniq d md kd
    rw [this, m2.hit r2' sb2 nb2 (.inl rfl)] at hd
    cases hd
  -- the group
  obtain ⟨ev, gp⟩ := grpHalf_gp (A := E.out) c6 en6.reg sT5 bT6 sB5 bB6
  have iA := en6.ins _ hE
  have hL : ∀ d, (d ∈ h6.xJmp T.out ∨ d ∈ h6.xOut B.out) → ∃ b, S5 b ∧ h6.IsB b ∧ d ∈ h6.O b := by
    rintro d (k | k)
    · exact ⟨T.out, sT5, bT6, (mem_xJmp.mp k).1⟩
    · exact ⟨B.out, sB5, bB6, (mem_xOut.mp k).1⟩
  refine ⟨h6, Ext S5 h6 (h6.grpHalf E.out T.out B.out).1, ?_, ?_⟩
  · rw [Heap.linkWhile, q1, Option.bind_some, q2, Option.bind_some, Heap.linkThen, q3a, Option.bind_some, q3, Option.bind_some, q4, Option.bind_some, q5,
      Option.bind_some, q6]
  rw [ev]
  have n2 := l1.next
  have n3 := m2.next
  have n4 := m3.next
  have n5 := m4.next
  have n6 := mk.next
  have out : ∀ i, (i < h.next ∧ ∀ F ∈ [E, T, B], ¬ F.S i) → ¬ S5 i := by
    rintro i k (((((((q | (q | q)) | q) | q) | q) | q) | q))
    · exact k.2 E (by simp) q
    · exact k.2 T (by simp) q
    · omega
    · omega
    · exact k.2 B (by simp) q
    · omega
    · omega
    · omega
  have out3 : ∀ i, (i < h.next ∧ ∀ F ∈ [E, T, B], ¬ F.S i) → ¬ S3 i := fun i k q => out i k (.inl (.inl q))
  refine W.step (N := { S := Ext S5 h6 (h6.grpHalf E.out T.out B.out).1, ins := h6.next :: E.ins, out := h6.next, one := false, jump := some false, head := E.head, run := WhileRun E T B })
    (Os := [E, T, B]) w (gp.clean c6 en6.reg iA.sB) (by rw [gp.next]; omega) ?_ (e := a) (s := 0)
    ⟨gp.ent c6 en6.reg en6 hE hL, gp.ext c6 en6.reg iA.sB, gp.isBvn c6 en6.reg, by simp, by simp, ?_, ?_, fE.head⟩ ?_
  · have lt : ∀ i, (i < h.next ∧ ∀ F ∈ [E, T, B], ¬ F.S i) → i < h.next := fun i k => k.1
    refine (((((j.frame rT iT lt (fun i k => k.2 T (by simp))).trans (m1.frame c1 r1 st1 iT1.ne ?_ ?_)).trans (m2.frame c2 r2' sb2 nb2 ?_ ?_)).trans
      (m3.frame c3 r3 st3 nt3 ?_ out3)).trans (m4.frame c4 r4 st4 nt4 ?_ ?_)).trans ((mk.frame ?_).trans (gp.frame c6 en6.reg iA.sB ?_ out))
    · intro i k; have := lt i k; omega
    · exact fun i k q => out3 i k (.inl (.inl (.inl q)))
    · intro i k; have := lt i k; omega
    · exact fun i k q => out3 i k (.inl q)
    · intro i k; have := lt i k; omega
    · intro i k; have := lt i k; omega
    · exact fun i k q => out i k (.inl q)
    · exact fun k => out sB k (.inl (r4.memO _ oB4.sX oB4.bX _ oB4.mem))
    · intro i k; have := lt i k; omega
  · intro b eb
    cases eb
    have ne : dj ≠ sB := ns4 dj mj4
    have mj6 : dj ∈ h6.O T.out := by rw [mk.O, OT5]; exact mj4
    refine ⟨dj, (gp.mem dj).mpr (.inl (mem_xJmp.mpr ⟨mj6, ?_, ?_⟩)), ?_, ?_, ?_⟩
    · rw [mk.edge dj ne, ej5.1]; simp
    · rw [mk.edge dj ne]; exact ej5.2.1
    · rw [gp.edge, mk.edge dj ne]; exact ej5.1
    · rw [gp.edge, mk.edge dj ne]; exact ej5.2.1
    · rw [gp.edge, mk.edge dj ne]; exact ej5.2.2
  · intro k ns q
    refine gp.reach c6 en6.reg en6.se en6.ne ?_ (all k ns q)
    intro x _ d md k2 _
    exact .inl (mem_xJmp.mpr ⟨md, fun z => seqT d md k2 z, k2⟩)
  · rintro i (((((((((k | (k | k)) | k) | k) | k) | k) | k)) | k))
    · exact .inl ⟨E, by simp, k⟩
    · exact .inl ⟨T, by simp, k⟩
    · exact .inr k.1
    · exact .inr (by omega)
    · exact .inl ⟨B, by simp, k⟩
    · exact .inr (by omega)
    · exact .inr (by omega)
    · exact .inr (by omega)
    · exact .inr (by omega)

end Mole.Cfg
