import Verif.Graph.CfgOps

/-! The fragments on the analysis' stacks, side by side. -/

namespace Mole.Cfg

/-- Ways a walk may leave a fragment: by the edge it falls through, by a jump taken for true, by a jump taken for false. -/
structure Ex where
  q : Bool := false
  t : Bool := false
  f : Bool := false
deriving DecidableEq, Repr

def Ex.jmp (x : Ex) : Bool → Bool
  | true => x.t
  | false => x.f

/-- What a walk through a fragment reaches: one of some ways to leave it, or any place. -/
inductive Kd
  | ex (x : Ex)
  | pre

abbrev Kd.seq : Kd := .ex { q := true }

/-- Whether an edge is one of the ways. -/
def Ex.ok (x : Ex) (e : Edge) : Prop := x.q = true ∧ e.kind = .seq ∨ ∃ b, x.jmp b = true ∧ e.kind = .jmp ∧ e.tag.on b = true

theorem Ex.ok_like {x : Ex} {e e' : Edge} (k : e'.kind = e.kind) (t : e'.tag.Like e.tag) (o : x.ok e) : x.ok e' := by
  rcases o with ⟨a, b⟩ | ⟨b, c, d, f⟩
  · exact .inl ⟨a, by rw [k]; exact b⟩
  · exact .inr ⟨b, c, by rw [k]; exact d, by rw [Tag.on_like t]; exact f⟩

def Reach (h : Heap) (e X : Nat) : Kd → List Nat → Prop
  | .ex x, ns => ∃ d ∈ h.O X, (h.edge d).dst = none ∧ x.ok (h.edge d) ∧ PE h e ns d
  | .pre, ns => Pre h e ns

theorem Reach.seq {h : Heap} {S : Nat → Prop} {e X s : Nat} {ns : List Nat} (o : Out h S X s) (r : Reach h e X .seq ns) : PE h e ns s := by
  obtain ⟨d, md, _, k, p⟩ := r
  rcases k with ⟨_, k⟩ | ⟨b, k, _⟩
  · rw [← o.uniq d md k]; exact p
  · cases b <;> cases k

/-- What is known about a fragment: the part of the heap it owns, the blocks it is entered by, the block it is left by, other
blocks of it, and walks through it.  `one`: it is left by one edge and by jumps; `tidy`: its last block has one edge only;
`multi`: its last block has more edges; `jump`: it has a jump for this value; `mark`: what its last block holds; `head`: its first
block. -/
structure Fr where
  S : Nat → Prop
  ins : List Nat
  out : Nat
  blks : List Nat := []
  one : Bool := true
  tidy : Bool := false
  multi : Bool := false
  jump : Option Bool := none
  mark : Node → Prop := fun _ => False
  head : Option Nat := none
  run : Kd → List Nat → Prop

/-- The way into a fragment. -/
structure Ent (h : Heap) (S : Nat → Prop) (ins : List Nat) (e : Nat) : Prop where
  reg : Reg h S
  se : S e
  ne : h.Ng e
  ins : ∀ A ∈ ins, In h S A e
  fr : Fresh h S e

/-- Two edges leave the last block. -/
def Multi (h : Heap) (s : Nat) : Prop := ∃ x d, d ≠ s ∧ (h.edge s).src = some x ∧ s ∈ h.O x ∧ (h.edge d).src = some x ∧ d ∈ h.O x

theorem Multi.no {h : Heap} {s : Nat} (m : Multi h s) : ∃ x, (h.edge s).src = some x ∧ ∀ k, h.O x ≠ [k] := by
  obtain ⟨x, d, ne, ex, mx, _, md⟩ := m
  refine ⟨x, ex, fun k q => ne ?_⟩
  rw [q] at mx md
  rw [List.mem_singleton.mp mx, List.mem_singleton.mp md]

/-- The way out of a fragment. -/
structure Last (h : Heap) (F : Fr) (s : Nat) : Prop where
  out : Out h F.S F.out s
  tidy : F.tidy = true → ∃ x, Tidy h x s
  multi : F.multi = true → Multi h s
  mark : ∀ n, F.mark n → ∃ x, (h.edge s).src = some x ∧ n ∈ (h.blk x).nodes

structure Frag (h : Heap) (F : Fr) (e s : Nat) : Prop where
  ent : Ent h F.S F.ins e
  sX : F.S F.out
  bX : h.IsB F.out
  blks : ∀ b ∈ F.blks, F.S b ∧ h.IsB b
  last : F.one = true → Last h F s
  jump : ∀ b, F.jump = some b → ∃ d ∈ h.O F.out, (h.edge d).kind = .jmp ∧ (h.edge d).dst = none ∧ (h.edge d).tag.on b = true
  run : ∀ k ns, F.run k ns → Reach h e F.out k ns
  head : ∀ b, F.head = some b → e = b

theorem Last.src {h : Heap} {F : Fr} {s : Nat} (r : Reg h F.S) (l : Last h F s) : ∃ x, (h.edge s).src = some x ∧ s ∈ h.O x ∧ F.S x ∧ h.Ng x := by
  obtain ⟨x, ex, mx⟩ := l.out.live
  obtain ⟨sx, nx⟩ := r.srcO _ l.out.sX l.out.bX s l.out.mem x ex
  exact ⟨x, ex, mx, sx, nx⟩

theorem Reach.agree {h h' : Heap} {S : Nat → Prop} (a : Agree h h' S) {e X : Nat} {k : Kd} {ns : List Nat} (r : Reg h S) (se : S e) (ne : h.Ng e)
    (sX : S X) (bX : h.IsB X) (q : Reach h e X k ns) : Reach h' e X k ns := by
  cases k with
  | pre => exact Pre.agree r a q se ne.isB
  | ex x =>
    obtain ⟨d, md, k1, k2, k3⟩ := q
    refine ⟨d, by rw [a.O r sX bX]; exact md, ?_, ?_, k3.agree r a se ne.isB⟩ <;>
      rw [a.edge d (r.memO X sX bX d md)] <;> assumption

theorem Ent.agree {h h' : Heap} {S : Nat → Prop} {ins : List Nat} {e : Nat} (f : Ent h S ins e) (a : Agree h h' S) (n : h.next ≤ h'.next) : Ent h' S ins e :=
  ⟨f.reg.agree a n, f.se, (a.ng f.se).mpr f.ne, fun A m => (f.ins A m).agree a f.reg, f.fr.agree a f.reg f.se f.ne⟩

theorem Last.agree {h h' : Heap} {F : Fr} {s : Nat} (l : Last h F s) (r : Reg h F.S) (a : Agree h h' F.S) : Last h' F s := by
  obtain ⟨x, ex, mx, sx, nx⟩ := l.src r
  refine ⟨l.out.agree a r, ?_, ?_, ?_⟩
  · intro t
    obtain ⟨x', t⟩ := l.tidy t
    rw [t.src] at ex; cases ex
    exact ⟨x, t.agree a r sx nx⟩
  · intro t
    obtain ⟨x', d, ne, e1, m1, e2, m2⟩ := l.multi t
    rw [e1] at ex; cases ex
    refine ⟨x, d, ne, ?_, ?_, ?_, ?_⟩
    · rw [a.edge s (r.memO x sx nx.isB s m1)]; exact e1
    · rw [a.O r sx nx.isB]; exact m1
    · rw [a.edge d (r.memO x sx nx.isB d m2)]; exact e2
    · rw [a.O r sx nx.isB]; exact m2
  · intro m q
    obtain ⟨x', ex', k⟩ := l.mark m q
    rw [ex'] at ex; cases ex
    exact ⟨x, by rw [a.edge s (r.memO _ l.out.sX l.out.bX s l.out.mem)]; exact ex', by rw [a.blk x sx]; exact k⟩

theorem Frag.agree {h h' : Heap} {F : Fr} {e s : Nat} (f : Frag h F e s) (a : Agree h h' F.S) (n : h.next ≤ h'.next) : Frag h' F e s := by
  refine ⟨f.ent.agree a n, f.sX, (a.isB f.sX).mpr f.bX, fun b m => ⟨(f.blks b m).1, (a.isB (f.blks b m).1).mpr (f.blks b m).2⟩,
    fun o => (f.last o).agree f.ent.reg a, ?_, fun k ns q => (f.run k ns q).agree a f.ent.reg f.ent.se f.ent.ne f.sX f.bX, f.head⟩
  intro b j
  obtain ⟨d, md, k⟩ := f.jump b j
  exact ⟨d, by rw [a.O f.ent.reg f.sX f.bX]; exact md, by rw [a.edge d (f.ent.reg.memO _ f.sX f.bX d md)]; exact k⟩

/-- Fragments built since `h0`, which have no part of the heap in common. -/
structure W (h0 h : Heap) (Fs : List Fr) : Prop where
  clean : Clean h
  le : h0.next ≤ h.next
  agree : Agree h0 h (fun i => i < h0.next)
  frag : ∀ F ∈ Fs, ∃ e s, Frag h F e s
  low : ∀ F ∈ Fs, ∀ i, F.S i → h0.next ≤ i
  dis : Fs.Pairwise (fun F G => ∀ i, F.S i → ¬ G.S i)

theorem W.start {h : Heap} (c : Clean h) : W h h [] :=
  ⟨c, Nat.le_refl _, .refl _ _, by simp, by simp, .nil⟩

theorem W.perm {h0 h : Heap} {Fs Gs : List Fr} (w : W h0 h Fs) (p : Fs.Perm Gs) : W h0 h Gs :=
  ⟨w.clean, w.le, w.agree, fun F m => w.frag F (p.mem_iff.mpr m), fun F m => w.low F (p.mem_iff.mpr m),
    w.dis.perm p (fun k i a b => k i b a)⟩

/-- Some fragments are replaced by one made of them and of new identities. -/
theorem W.step {h0 h h' : Heap} {Os Fs : List Fr} (w : W h0 h (Os ++ Fs)) (c : Clean h') (n : h.next ≤ h'.next)
    (a : Agree h h' (fun i => i < h.next ∧ ∀ F ∈ Os, ¬ F.S i)) {N : Fr} {e s : Nat} (f : Frag h' N e s)
    (sub : ∀ i, N.S i → (∃ F ∈ Os, F.S i) ∨ h.next ≤ i) : W h0 h' (N :: Fs) := by
  have cross : ∀ F ∈ Os, ∀ G ∈ Fs, ∀ i, F.S i → ¬ G.S i := (List.pairwise_append.mp w.dis).2.2
  have lt : ∀ F ∈ Os ++ Fs, ∀ i, F.S i → i < h.next := by
    intro F m i k
    obtain ⟨e, s, f⟩ := w.frag F m
    exact f.ent.reg.lt i k
  refine ⟨c, Nat.le_trans w.le n, w.agree.trans (a.mono ?_), ?_, ?_, ?_⟩
  · intro i k
    refine ⟨Nat.lt_of_lt_of_le k w.le, fun F m q => ?_⟩
    have := w.low F (List.mem_append_left _ m) i q
    omega
  · intro F m
    rcases List.mem_cons.mp m with rfl | m
    · exact ⟨e, s, f⟩
    · obtain ⟨e', s', g⟩ := w.frag F (List.mem_append_right _ m)
      exact ⟨e', s', g.agree (a.mono (fun i k => ⟨lt F (List.mem_append_right _ m) i k, fun O o q => cross O o F m i q k⟩)) n⟩
  · intro F m i k
    rcases List.mem_cons.mp m with rfl | m
    · rcases sub i k with ⟨O, o, q⟩ | q
      · exact w.low O (List.mem_append_left _ o) i q
      · exact Nat.le_trans w.le q
    · exact w.low F (List.mem_append_right _ m) i k
  · refine List.pairwise_cons.mpr ⟨?_, (List.pairwise_append.mp w.dis).2.1⟩
    intro G m i k q
    rcases sub i k with ⟨O, o, z⟩ | z
    · exact cross O o G m i z q
    · have := lt G (List.mem_append_right _ m) i q
      omega

/-- Less may be said about a fragment. -/
theorem W.weaken {h0 h : Heap} {F : Fr} {Fs : List Fr} (w : W h0 h (F :: Fs)) {run : Kd → List Nat → Prop} (k : ∀ d ns, run d ns → F.run d ns) :
    W h0 h ({ F with run := run } :: Fs) := by
  obtain ⟨e, s, f⟩ := w.frag F (by simp)
  refine W.step (Os := [F]) w w.clean (Nat.le_refl _) (.refl _ _) (e := e) (s := s)
    ⟨f.ent, f.sX, f.bX, f.blks, fun o => ⟨(f.last o).out, (f.last o).tidy, (f.last o).multi, (f.last o).mark⟩, f.jump, fun d ns q => f.run d ns (k d ns q), f.head⟩ ?_
  intro i q
  exact .inl ⟨F, by simp, q⟩

/-- A fragment is forgotten. -/
theorem W.drop {h0 h : Heap} {F : Fr} {Fs : List Fr} (w : W h0 h (F :: Fs)) : W h0 h Fs :=
  ⟨w.clean, w.le, w.agree, fun G m => w.frag G (by simp [m]), fun G m => w.low G (by simp [m]), (List.pairwise_cons.mp w.dis).2⟩

/-- Work done above `h1` is work done above `h0`. -/
theorem W.join {h0 h1 h : Heap} {Fs Gs : List Fr} (w : W h0 h1 Fs) (v : W h1 h Gs) : W h0 h (Gs ++ Fs) := by
  have lt : ∀ F ∈ Fs, ∀ i, F.S i → i < h1.next := by
    intro F m i k
    obtain ⟨e, s, f⟩ := w.frag F m
    exact f.ent.reg.lt i k
  refine ⟨v.clean, Nat.le_trans w.le v.le, w.agree.trans (v.agree.mono (fun i k => Nat.lt_of_lt_of_le k w.le)), ?_, ?_, ?_⟩
  · intro F m
    rcases List.mem_append.mp m with m | m
    · exact v.frag F m
    · obtain ⟨e, s, f⟩ := w.frag F m
      exact ⟨e, s, f.agree (v.agree.mono (lt F m)) v.le⟩
  · intro F m i k
    rcases List.mem_append.mp m with m | m
    · exact Nat.le_trans w.le (v.low F m i k)
    · exact w.low F m i k
  · refine List.pairwise_append.mpr ⟨v.dis, w.dis, ?_⟩
    intro G m F n i k q
    have := v.low G m i k
    have := lt F n i q
    omega

/-- A new block. -/
theorem W.newBlk {h0 h : Heap} {Fs : List Fr} (w : W h0 h Fs) (k : BK) (nodes : List Node) (kk : k = .basic ∨ k = .start) :
    (h.newBlk k nodes).2 = h.next ∧ W h0 (h.newBlk k nodes).1 ({ S := Two h.next, ins := [h.next], out := h.next, tidy := true, mark := fun n => n ∈ nodes, head := some h.next, run := fun k ns => match k with | .ex x => x.q = true ∧ ns = vis nodes | .pre => ns <+: vis nodes } :: Fs) := by
  have nb := newBlk_spec w.clean k nodes kk
  refine ⟨rfl, W.step (Os := []) w nb.clean (by rw [nb.next]; omega) (nb.agree.mono (fun i k => k.1)) (e := h.next) (s := h.next + 1) ?_ ?_⟩
  · refine ⟨⟨nb.part.reg, .inl rfl, nb.ng, ?_, nb.part.fr⟩, .inl rfl, nb.ng.isB, by simp, fun _ => ⟨nb.part.out, fun _ => ⟨_, nb.tidy⟩, by simp, ?_⟩, by simp, ?_, by simp⟩
    · intro A m
      rw [List.mem_singleton.mp m]; exact nb.part.inA
    · intro n m
      exact ⟨h.next, nb.tidy.src, by rw [nb.body]; exact m⟩
    · intro k ns q
      cases k with
      | ex x => exact ⟨h.next + 1, nb.part.out.mem, nb.part.out.hang, .inl ⟨q.1, nb.part.out.kind⟩, by rw [q.2]; exact nb.pe⟩
      | pre => exact nb.pe.pre_of q
  · rintro i (k | k)
    · exact .inr (by omega)
    · exact .inr (by omega)

section ls

variable {h h' : Heap} {U V : Nat → Prop} {to : Nat} {Q : Nat → Prop} (l : LS h h' U V to Q)

include l

/-- Walks that go on in the second fragment. -/
theorem LS.reachV {a X c : Nat} {ns ms : List Nat} {k : Kd} (rV : Reg h V) (dis : ∀ i, U i → ¬ V i) (hQ : ∀ d, Q d → U d) (ua : U a) (na : h.Ng a)
    (vX : V X) (bX : h.IsB X) (p : PE h a ns c) (q : Q c) (r : Reach h to X k ms) : Reach h' a X k (ns ++ ms) := by
  cases k with
  | pre => exact l.tBp a ns ms c ua na p q r
  | ex x =>
    obtain ⟨d, md, k1, k2, k3⟩ := r
    have vd := rV.memO X vX bX d md
    have nq : ¬ Q d := fun z => dis d (hQ d z) vd
    refine ⟨d, ?_, by rw [l.dst X (.inr vX) bX d md nq]; exact k1, Ex.ok_like (l.kind d (rV.lt d vd)) (l.like X (.inr vX) bX d md) k2,
      l.tB a ns ms c d ua na p q k3⟩
    rcases l.outs X (.inr vX) bX with k | ⟨k, _⟩
    · rw [k]; exact md
    · exact absurd vX (dis X k)

/-- Walks that leave by an edge of the first fragment that was not linked. -/
theorem LS.reachU {a X : Nat} {ns : List Nat} {k : Kd} (rU : Reg h U) (ua : U a) (na : h.Ng a) (uX : U X) (bX : h.IsB X)
    (nq : ∀ x, k = .ex x → ∀ d ∈ h.O X, x.ok (h.edge d) → ¬ Q d) (r : Reach h a X k ns) : Reach h' a X k ns := by
  cases k with
  | pre => exact l.tAp a ns ua na r
  | ex x =>
    obtain ⟨d, md, k1, k2, k3⟩ := r
    have nq := nq x rfl d md k2
    have ld := rU.lt d (rU.memO X uX bX d md)
    refine ⟨d, ?_, by rw [l.dst X (.inl uX) bX d md nq]; exact k1, Ex.ok_like (l.kind d ld) (l.like X (.inl uX) bX d md) k2, l.tA a ns d ua na k3 nq⟩
    rcases l.outs X (.inl uX) bX with k | ⟨_, _, k⟩
    · rw [k]; exact md
    · exact absurd (k d md) nq

theorem LS.ent {ins : List Nat} {a : Nat} (c : Clean h) (rV : Reg h V) (vto : V to) (dis : ∀ i, U i → ¬ V i) (f : Ent h U ins a) : Ent h' (Ext (Un U V) h h') ins a := by
  have ne : a ≠ to := fun k => dis a f.se (k ▸ vto)
  exact ⟨l.reg, .inl (.inl f.se), (l.ng a).mpr f.ne, fun A m => l.inU f.reg ne (f.ins A m), l.freshU c f.reg rV dis f.se f.ne ne f.fr⟩

omit l in
theorem LS.last {G : Fr} {s : Nat} (ll : LS h h' U G.S to Q) (rV : Reg h G.S) (dis : ∀ i, U i → ¬ G.S i) (hQ : ∀ d, Q d → U d) (g : Last h G s) {F : Fr}
    (e1 : F.S = Ext (Un U G.S) h h') (e2 : F.out = G.out) (e3 : F.tidy = G.tidy) (e4 : F.multi = G.multi) (e5 : F.mark = G.mark) : Last h' F s := by
  have vs := rV.memO _ g.out.sX g.out.bX s g.out.mem
  obtain ⟨x, ex, mx, sx, nx⟩ := g.src rV
  obtain ⟨x', kp, kn⟩ := ll.keep x sx nx
  refine ⟨by rw [e1, e2]; exact ll.outV rV dis hQ g.out, ?_, ?_, ?_⟩
  · intro t
    obtain ⟨y, t⟩ := g.tidy (by rw [← e3]; exact t)
    have ey := t.src
    rw [ex] at ey; cases ey
    exact ll.tidy x s sx nx t (fun z => dis s (hQ s z) vs)
  · intro t
    obtain ⟨y, d, ne, k1, k2, k3, k4⟩ := g.multi (by rw [← e4]; exact t)
    rw [ex] at k1; cases k1
    exact ⟨x', d, ne, (kp s ex mx).1, (kp s ex mx).2, (kp d k3 k4).1, (kp d k3 k4).2⟩
  · intro n m
    obtain ⟨y, ey, k⟩ := g.mark n (by rw [← e5]; exact m)
    rw [ex] at ey; cases ey
    exact ⟨x', (kp s ex mx).1, kn n k⟩

omit l in
/-- The fragment that results from linking two, given the walks. -/
theorem LS.frag {F G : Fr} {a s1 s2 : Nat} (c : Clean h) (l : LS h h' F.S G.S to Q) (f : Frag h F a s1) (g : Frag h G to s2) (dis : ∀ i, F.S i → ¬ G.S i)
    (hQ : ∀ d, Q d → F.S d) {run : Kd → List Nat → Prop} (hr : ∀ k ns, run k ns → Reach h' a G.out k ns) :
    Frag h' { S := Ext (Un F.S G.S) h h', ins := F.ins, out := G.out, blks := F.out :: G.out :: (F.ins ++ F.blks ++ G.blks), one := G.one, tidy := G.tidy,
              multi := G.multi, mark := G.mark, head := F.head, run := run } a s2 := by
  refine ⟨l.ent c g.ent.reg g.ent.se dis f.ent, .inl (.inr g.sX), (l.isB _).mpr g.bX, ?_, fun o => LS.last l g.ent.reg dis hQ (g.last o) rfl rfl rfl rfl rfl, by simp, hr, f.head⟩
  intro b m
  have : (F.S b ∨ G.S b) ∧ h.IsB b := by
    simp only [List.mem_cons, List.mem_append] at m
    rcases m with rfl | rfl | (m | m) | m
    · exact ⟨.inl f.sX, f.bX⟩
    · exact ⟨.inr g.sX, g.bX⟩
    · exact ⟨.inl (f.ent.ins b m).sB, (f.ent.ins b m).bB⟩
    · exact ⟨.inl (f.blks b m).1, (f.blks b m).2⟩
    · exact ⟨.inr (g.blks b m).1, (g.blks b m).2⟩
  exact ⟨.inl this.1, (l.isB b).mpr this.2⟩

end ls

/-- A walk through the first fragment, then one through the second. -/
def Seqd (p : List Nat → Prop) (F G : Fr) : Kd → List Nat → Prop
  | k, ns => (∃ n1 n2, ns = n1 ++ n2 ∧ p n1 ∧ G.run k n2) ∨ (k = .pre ∧ F.run .pre ns)

/-- The runs that reach an edge. -/
def Thru (F : Fr) (ns : List Nat) : Prop := ∃ x : Ex, F.run (.ex x) ns

theorem Tag.meets_on {a ft : Tag} {b : Bool} (k : a.on b = true) (q : ft.bit b = true) : a.meets ft = true := by
  cases b <;> simp only [Tag.on, Tag.bit, Bool.and_eq_true] at k q <;> simp [Tag.meets, k, q]

section link

variable {ω : Order} (fair : ω.Fair) {h0 h : Heap} {F G : Fr} {Fs : List Fr}

include fair

/-- `link(F, EK_SEQ, ET_NONE, _, _, B, LF_NONE)`. -/
theorem W.link (w : W h0 h (F :: G :: Fs)) (one : F.one = true) {B : Nat} (hB : B ∈ G.ins) (tk : EK) (tt : Tag) :
    ∃ h' S', h.link ω F.out .seq {} tk tt B {} = some h' ∧ (∀ A ∈ F.ins, A ≠ G.out) ∧
      W h0 h' ({ S := S', ins := F.ins, out := G.out, blks := F.out :: G.out :: (F.ins ++ F.blks ++ G.blks), one := G.one, tidy := G.tidy, multi := G.multi,
                 mark := G.mark, head := F.head, run := Seqd (F.run .seq) F G } :: Fs) := by
  obtain ⟨a, s1, f⟩ := w.frag F (by simp)
  obtain ⟨e, s2, g⟩ := w.frag G (by simp)
  have dis : ∀ i, F.S i → ¬ G.S i := (List.pairwise_cons.mp w.dis).1 G (by simp)
  have o := (f.last one).out
  obtain ⟨h', eq, l⟩ := link_ls fair w.clean f.ent.reg g.ent.reg dis o (g.ent.ins B hB) g.ent.fr tk tt
  have hQ : ∀ d, d = s1 → F.S d := by rintro d rfl; exact f.ent.reg.memO _ o.sX o.bX _ o.mem
  refine ⟨h', _, eq, fun A m k => dis A (f.ent.ins A m).sB (k ▸ g.sX), W.step (Os := [F, G]) w l.clean l.next (l.agree.mono ?_)
    (l.frag w.clean f g dis hQ (run := Seqd (F.run .seq) F G) ?_) ?_⟩
  · intro i k
    exact ⟨k.1, k.2 F (by simp), k.2 G (by simp)⟩
  · rintro k ns (⟨n1, n2, rfl, q, r⟩ | ⟨rfl, q⟩)
    · exact l.reachV g.ent.reg dis hQ f.ent.se f.ent.ne g.sX g.bX ((f.run .seq n1 q).seq o) rfl (g.run k n2 r)
    · exact l.tAp a ns f.ent.se f.ent.ne (f.run .pre ns q)
  · rintro i ((k | k) | k)
    · exact .inl ⟨F, by simp, k⟩
    · exact .inl ⟨G, by simp, k⟩
    · exact .inr k.1

/-- `link(F, …, B, LF_FORCE_JOIN)`. -/
theorem W.linkForce (w : W h0 h (F :: G :: Fs)) (one : F.one = true) (ti : F.tidy = true) {B : Nat} (hB : B ∈ G.ins) (tk : EK) (tt : Tag) :
    ∃ h' S', h.link ω F.out .seq {} tk tt B { join := true } = some h' ∧ (∀ A ∈ F.ins, A ≠ G.out) ∧
      W h0 h' ({ S := S', ins := F.ins, out := G.out, blks := F.out :: G.out :: (F.ins ++ F.blks ++ G.blks), one := G.one, tidy := G.tidy, multi := G.multi,
                 mark := G.mark, head := F.head, run := Seqd (F.run .seq) F G } :: Fs) := by
  obtain ⟨a, s1, f⟩ := w.frag F (by simp)
  obtain ⟨e, s2, g⟩ := w.frag G (by simp)
  have dis : ∀ i, F.S i → ¬ G.S i := (List.pairwise_cons.mp w.dis).1 G (by simp)
  have o := (f.last one).out
  obtain ⟨x, td⟩ := (f.last one).tidy ti
  obtain ⟨h', eq, l⟩ := link_force fair w.clean f.ent.reg g.ent.reg dis o td (g.ent.ins B hB) g.ent.fr tk tt
  have hQ : ∀ d, d = s1 → F.S d := by rintro d rfl; exact f.ent.reg.memO _ o.sX o.bX _ o.mem
  refine ⟨h', _, eq, fun A m k => dis A (f.ent.ins A m).sB (k ▸ g.sX), W.step (Os := [F, G]) w l.clean l.next (l.agree.mono ?_)
    (l.frag w.clean f g dis hQ (run := Seqd (F.run .seq) F G) ?_) ?_⟩
  · intro i k
    exact ⟨k.1, k.2 F (by simp), k.2 G (by simp)⟩
  · rintro k ns (⟨n1, n2, rfl, q, r⟩ | ⟨rfl, q⟩)
    · exact l.reachV g.ent.reg dis hQ f.ent.se f.ent.ne g.sX g.bX ((f.run .seq n1 q).seq o) rfl (g.run k n2 r)
    · exact l.tAp a ns f.ent.se f.ent.ne (f.run .pre ns q)
  · rintro i ((k | k) | k)
    · exact .inl ⟨F, by simp, k⟩
    · exact .inl ⟨G, by simp, k⟩
    · exact .inr k.1

/-- `link(F, EK_JMP, ft, EK_JMP, ET_NONE, B, LF_NONE)`, then `link(F, EK_SEQ, ET_NONE, EK_SEQ, ET_NONE, B, _)`, where `ft` includes both values. -/
theorem W.link2 (w : W h0 h (F :: G :: Fs)) {B : Nat} (hB : B ∈ G.ins) (ft : Tag) (nc : ft.cut = false) (full : ∀ b, ft.isNone = true ∨ ft.bit b = true)
    (sep : Bool) (o : sep = true ∨ F.one = true ∨ ∃ b, F.jump = some b) :
    ∃ h1 h' S', h.link ω F.out .jmp ft .jmp {} B {} = some h1 ∧ h1.link ω F.out .seq {} .seq {} B { sep := sep } = some h' ∧ (∀ A ∈ F.ins, A ≠ G.out) ∧
      W h0 h' ({ S := S', ins := F.ins, out := G.out, blks := F.out :: G.out :: (F.ins ++ F.blks ++ G.blks), one := G.one, tidy := G.tidy, multi := G.multi,
                 mark := G.mark, head := F.head, run := Seqd (Thru F) F G } :: Fs) := by
  obtain ⟨a, s1, f⟩ := w.frag F (by simp)
  obtain ⟨e, s2, g⟩ := w.frag G (by simp)
  have dis : ∀ i, F.S i → ¬ G.S i := (List.pairwise_cons.mp w.dis).1 G (by simp)
  have o : sep = true ∨ (∃ s, Out h F.S F.out s) ∨ ∃ d ∈ h.O F.out, Sel h .jmp ft d := by
    rcases o with o | o | ⟨b, o⟩
    · exact .inl o
    · exact .inr (.inl ⟨s1, (f.last o).out⟩)
    · obtain ⟨d, md, k, _, t⟩ := f.jump b o
      exact .inr (.inr ⟨d, md, k, (full b).imp id (fun q => Tag.meets_on t q)⟩)
  obtain ⟨h1, h', e1, e2, l⟩ := link2_ls fair w.clean f.ent.reg g.ent.reg dis f.sX f.bX (g.ent.ins B hB) g.ent.fr ft {} nc sep o
  have hQ : ∀ d, (Cho h F.out .jmp ft d ∨ Cho h F.out .seq {} d) → F.S d := by
    rintro d (k | k) <;> exact f.ent.reg.memO _ f.sX f.bX _ k.1
  refine ⟨h1, h', _, e1, e2, fun A m k => dis A (f.ent.ins A m).sB (k ▸ g.sX), W.step (Os := [F, G]) w l.clean l.next (l.agree.mono ?_)
    (l.frag w.clean f g dis hQ (run := Seqd (Thru F) F G) ?_) ?_⟩
  · intro i k
    exact ⟨k.1, k.2 F (by simp), k.2 G (by simp)⟩
  · rintro k ns (⟨n1, n2, rfl, ⟨x, q⟩, r⟩ | ⟨rfl, q⟩)
    · obtain ⟨d, md, k1, k2, p⟩ := f.run _ n1 q
      have q : Cho h F.out .jmp ft d ∨ Cho h F.out .seq {} d := by
        rcases k2 with ⟨_, k⟩ | ⟨b, _, k, t⟩
        · exact .inr ⟨md, ⟨k, .inl rfl⟩, k1⟩
        · exact .inl ⟨md, ⟨k, (full b).imp id (fun q => Tag.meets_on t q)⟩, k1⟩
      exact l.reachV g.ent.reg dis hQ f.ent.se f.ent.ne g.sX g.bX p q (g.run k n2 r)
    · exact l.tAp a ns f.ent.se f.ent.ne (f.run .pre ns q)
  · rintro i ((k | k) | k)
    · exact .inl ⟨F, by simp, k⟩
    · exact .inl ⟨G, by simp, k⟩
    · exact .inr k.1

end link

end Mole.Cfg
