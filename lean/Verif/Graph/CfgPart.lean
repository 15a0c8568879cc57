import Verif.Graph.CfgSeq

/-! Fragments of a graph under construction: what is on the analysis' stacks. -/

namespace Mole.Cfg

/-- How a run of a piece of program ends: with a value that counts as true or false, or somewhere before its end. -/
inductive Res
  | val (b : Bool)
  | stop
deriving DecidableEq, Repr

/-- The tag a jump taken for `b` has. -/
def Tag.bit (t : Tag) : Bool → Bool
  | true => t.t
  | false => t.f

/-- The tag of a jump taken for `b` only. -/
def Tag.on (t : Tag) (b : Bool) : Bool := t.bit b && !t.bit !b

/-- A walk to a hanging jump of `X` that is taken for `b`. -/
def Jx (h : Heap) (e X : Nat) (ns : List Nat) (b : Bool) : Prop :=
  ∃ d ∈ h.O X, (h.edge d).kind = .jmp ∧ (h.edge d).dst = none ∧ (h.edge d).tag.on b = true ∧ PE h e ns d

/-- A walk that ends the way `Res` says: at the hanging edge `s`, or at a hanging jump. -/
def Ends (h : Heap) (e X s : Nat) (ns : List Nat) : Res → Prop
  | .val b => PE h e ns s ∨ Jx h e X ns b
  | .stop => Pre h e ns

/-- A fragment: entered through `A` at block `e`, left through `X` by edge `s`. -/
structure Part (h : Heap) (S : Nat → Prop) (A e X s : Nat) : Prop where
  reg : Reg h S
  inA : In h S A e
  fr : Fresh h S e
  out : Out h S X s

theorem Tag.on_like {a b : Tag} (k : a.Like b) (v : Bool) : a.on v = b.on v := by
  simp only [Tag.Like, Tag.mk.injEq] at k
  cases v <;> simp [Tag.on, Tag.bit, k]

section agree

variable {h h' : Heap} {S : Nat → Prop} (a : Agree h h' S) (n : h.next ≤ h'.next)

include a

theorem In.agree {B e : Nat} (r : Reg h S) (i : In h S B e) : In h' S B e := by
  obtain ⟨d, md, k⟩ := i.seq
  refine ⟨i.sB, (a.isB i.sB).mpr i.bB, i.se, (a.ng i.se).mpr i.ne, ?_, d, ?_, ?_⟩
  · rw [a.blk _ i.sB, a.blk _ i.se]; exact i.ins
  · rw [a.I r i.se i.ne.isB]; exact md
  · rw [a.edge d (r.memI e i.se i.ne.isB d md)]; exact k

theorem Fresh.agree {e : Nat} (r : Reg h S) (se : S e) (ne : h.Ng e) (f : Fresh h S e) : Fresh h' S e := by
  obtain ⟨i, ei, ki⟩ := f.one
  refine ⟨⟨i, by rw [a.I r se ne.isB]; exact ei, ?_⟩, ?_, ?_⟩
  · rw [a.edge i (r.memI e se ne.isB i (by rw [ei]; simp))]; exact ki
  · intro b sb bb d md
    have bb := (a.isB sb).mp bb
    rw [a.O r sb bb] at md
    rw [a.edge d (r.memO b sb bb d md)]
    exact f.lead b sb bb d md
  · intro d md
    rw [a.O r se ne.isB] at md
    rw [a.edge d (r.memO e se ne.isB d md)]
    exact f.own d md

theorem Out.agree {X s : Nat} (r : Reg h S) (o : Out h S X s) : Out h' S X s := by
  have ss := r.memO X o.sX o.bX s o.mem
  obtain ⟨x, ex, mx⟩ := o.live
  obtain ⟨sx, nx⟩ := r.srcO X o.sX o.bX s o.mem x ex
  refine ⟨o.sX, (a.isB o.sX).mpr o.bX, ?_, ?_, ?_, ⟨x, ?_, ?_⟩, ?_⟩
  · rw [a.O r o.sX o.bX]; exact o.mem
  · rw [a.edge s ss]; exact o.kind
  · rw [a.edge s ss]; exact o.hang
  · rw [a.edge s ss]; exact ex
  · rw [a.O r sx nx.isB]; exact mx
  · intro d md k
    rw [a.O r o.sX o.bX] at md
    rw [a.edge d (r.memO X o.sX o.bX d md)] at k
    exact o.uniq d md k

theorem Tidy.agree {x s : Nat} (r : Reg h S) (sx : S x) (nx : h.Ng x) (t : Tidy h x s) : Tidy h' x s := by
  have ss := r.memO x sx nx.isB s (by rw [t.only]; simp)
  exact ⟨by rw [a.O r sx nx.isB]; exact t.only, by rw [a.edge s ss]; exact t.src, by rw [a.edge s ss]; exact t.hang⟩

theorem Ends.agree {e X s : Nat} {ns : List Nat} {res : Res} (r : Reg h S) (se : S e) (ne : h.Ng e) (sX : S X) (bX : h.IsB X)
    (k : Ends h e X s ns res) : Ends h' e X s ns res := by
  cases res with
  | stop => exact Pre.agree r a k se ne.isB
  | val b =>
    rcases k with k | ⟨d, md, k1, k2, k3, k4⟩
    · exact .inl (k.agree r a se ne.isB)
    · refine .inr ⟨d, by rw [a.O r sX bX]; exact md, ?_, ?_, ?_, k4.agree r a se ne.isB⟩ <;>
        rw [a.edge d (r.memO X sX bX d md)] <;> assumption

include n

theorem Part.agree {A e X s : Nat} (p : Part h S A e X s) : Part h' S A e X s :=
  ⟨p.reg.agree a n, p.inA.agree a p.reg, p.fr.agree a p.reg p.inA.se p.inA.ne, p.out.agree a p.reg⟩

end agree

section ls

variable {h h' : Heap} {U V : Nat → Prop} {to : Nat} {Q : Nat → Prop} (l : LS h h' U V to Q) (c : Clean h)
  (rU : Reg h U) (rV : Reg h V) (dis : ∀ i, U i → ¬ V i)

include l

theorem LS.ng (b : Nat) : h'.Ng b ↔ h.Ng b := by simp only [Heap.Ng, l.bk]

theorem LS.isB (b : Nat) : h'.IsB b ↔ h.IsB b := by simp only [Heap.IsB, l.bk]

theorem LS.old {b : Nat} (c : Clean h) (s : Ext (Un U V) h h' b) (k : h'.IsB b) : Un U V b ∧ h.IsB b := by
  have k := (l.isB b).mp k
  rcases s with s | ⟨s, _⟩
  · exact ⟨s, k⟩
  · exact absurd k (c b s)

theorem LS.inU {A a : Nat} (rU : Reg h U) (ne : a ≠ to) (i : In h U A a) : In h' (Ext (Un U V) h h') A a := by
  obtain ⟨d, md, k⟩ := i.seq
  have ld := rU.lt d (rU.memI a i.se i.ne.isB d md)
  refine ⟨.inl (.inl i.sB), (l.isB A).mpr i.bB, .inl (.inl i.se), (l.ng a).mpr i.ne, by rw [l.bi, l.bi]; exact i.ins, d, ?_, ?_⟩
  · rw [l.ins a (.inl i.se) i.ne ne]; exact md
  · rw [l.kind d ld]; exact k

include c rU rV dis in
theorem LS.freshU {a : Nat} (ua : U a) (na : h.Ng a) (ne : a ≠ to) (f : Fresh h U a) : Fresh h' (Ext (Un U V) h h') a := by
  obtain ⟨i, ei, ki⟩ := f.one
  have li := rU.lt i (rU.memI a ua na.isB i (by rw [ei]; simp))
  refine ⟨⟨i, by rw [l.ins a (.inl ua) na ne]; exact ei, by rw [l.kind i li]; exact ki⟩, ?_, l.own a (.inl ua) na ne f.own⟩
  intro b sb bb d md ed
  obtain ⟨sb, bb⟩ := l.old c sb bb
  rcases l.lead b sb bb d md a ed with k | ⟨b', sb', bb', md', ed'⟩
  · exact ne k
  · rcases sb' with ub' | vb'
    · exact f.lead b' ub' bb' d md' ed'
    · exact dis a ua (rV.dstO b' vb' bb' d md' a ed').1

include rV dis in
theorem LS.outV {X s : Nat} (hQ : ∀ d, Q d → U d) (o : Out h V X s) : Out h' (Ext (Un U V) h h') X s := by
  have vs := rV.memO X o.sX o.bX s o.mem
  have nq : ¬ Q s := fun q => dis s (hQ s q) vs
  have eO : h'.O X = h.O X := by
    rcases l.outs X (.inr o.sX) o.bX with k | ⟨k, _⟩
    · exact k
    · exact absurd o.sX (dis X k)
  obtain ⟨x, ex, mx⟩ := o.live
  obtain ⟨vx, nx⟩ := rV.srcO X o.sX o.bX s o.mem x ex
  obtain ⟨x', kp, _⟩ := l.keep x vx nx
  obtain ⟨ex', mx'⟩ := kp s ex mx
  refine ⟨.inl (.inr o.sX), (l.isB X).mpr o.bX, by rw [eO]; exact o.mem, by rw [l.kind s (rV.lt s vs)]; exact o.kind, ?_,
    ⟨x', ex', mx'⟩, ?_⟩
  · rw [l.dst X (.inr o.sX) o.bX s o.mem nq]; exact o.hang
  · intro d md k
    rw [eO] at md
    rw [l.kind d (rV.lt d (rV.memO X o.sX o.bX d md))] at k
    exact o.uniq d md k

include c dis in
theorem LS.part {A a Y s1 B X s2 : Nat} (hQ : ∀ d, Q d → U d) (p : Part h U A a Y s1) (q : Part h V B to X s2) :
    Part h' (Ext (Un U V) h h') A a X s2 := by
  have ne : a ≠ to := fun k => dis a p.inA.se (k ▸ q.inA.se)
  exact ⟨l.reg, l.inU p.reg ne p.inA, l.freshU c p.reg q.reg dis p.inA.se p.inA.ne ne p.fr, l.outV q.reg dis hQ q.out⟩

/-- A hanging jump of the first fragment that was not linked is still there. -/
theorem LS.jxU {a Y : Nat} {ns : List Nat} {b : Bool} (rU : Reg h U) (ua : U a) (na : h.Ng a) (uY : U Y) (bY : h.IsB Y)
    (nq : ∀ d, (h.edge d).tag.on b = true → (h.edge d).kind = .jmp → ¬ Q d) (j : Jx h a Y ns b) : Jx h' a Y ns b := by
  obtain ⟨d, md, k1, k2, k3, k4⟩ := j
  have nq := nq d k3 k1
  have ld := rU.lt d (rU.memO Y uY bY d md)
  refine ⟨d, ?_, by rw [l.kind d ld]; exact k1, by rw [l.dst Y (.inl uY) bY d md nq]; exact k2, ?_, l.tA a ns d ua na k4 nq⟩
  · rcases l.outs Y (.inl uY) bY with k | ⟨_, _, k⟩
    · rw [k]; exact md
    · exact absurd (k d md) nq
  · rw [Tag.on_like (l.like Y (.inl uY) bY d md)]; exact k3

include rV dis in
theorem LS.endsV {a X s c : Nat} {ns ms : List Nat} {res : Res} (hQ : ∀ d, Q d → U d) (ua : U a) (na : h.Ng a) (vX : V X) (bX : h.IsB X)
    (p : PE h a ns c) (q : Q c) (k : Ends h to X s ms res) : Ends h' a X s (ns ++ ms) res := by
  cases res with
  | stop => exact l.tBp a ns ms c ua na p q k
  | val b =>
    rcases k with k | ⟨d, md, k1, k2, k3, k4⟩
    · exact .inl (l.tB a ns ms c s ua na p q k)
    · have vd := rV.memO X vX bX d md
      have nq : ¬ Q d := fun z => dis d (hQ d z) vd
      refine .inr ⟨d, ?_, by rw [l.kind d (rV.lt d vd)]; exact k1, by rw [l.dst X (.inr vX) bX d md nq]; exact k2, ?_,
        l.tB a ns ms c d ua na p q k4⟩
      · rcases l.outs X (.inr vX) bX with k | ⟨k, _⟩
        · rw [k]; exact md
        · exact absurd vX (dis X k)
      · rw [Tag.on_like (l.like X (.inr vX) bX d md)]; exact k3

/-- The part of the heap outside both fragments is as before. -/
theorem LS.frame {T : Nat → Prop} (lt : ∀ i, T i → i < h.next) (dU : ∀ i, T i → ¬ U i) (dV : ∀ i, T i → ¬ V i) : Agree h h' T :=
  l.agree.mono (fun i t => ⟨lt i t, dU i t, dV i t⟩)

end ls

end Mole.Cfg
