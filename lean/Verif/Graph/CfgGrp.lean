import Verif.Graph.CfgWorld

/-! Groups, hanging jumps and logical operations, on the pieces of a graph under construction. -/

namespace Mole.Cfg

section gp

variable {h h' : Heap} {S : Nat → Prop} {A vn : Nat} {L : Nat → Prop} (g : Gp h h' S A vn L) (c : Clean h) (r : Reg h S)

include g c r

theorem Gp.reach {a X : Nat} {ns : List Nat} {k : Kd} (sa : S a) (na : h.Ng a)
    (sub : ∀ x, k = .ex x → ∀ d ∈ h.O X, (h.edge d).dst = none → x.ok (h.edge d) → L d) (q : Reach h a X k ns) : Reach h' a vn k ns := by
  cases k with
  | pre => exact g.pre c r sa na q
  | ex x =>
    obtain ⟨d, md, k1, k2, k3⟩ := q
    exact ⟨d, (g.mem d).mpr (sub x rfl d md k1 k2), by rw [g.edge]; exact k1, by rw [g.edge]; exact k2, g.pe c r sa na k3⟩

theorem Gp.isB {b : Nat} (k : h.IsB b) : h'.IsB b := by
  by_cases q : b = vn
  · rw [q]; exact g.isBvn c r
  · simpa only [Heap.IsB, g.blk b q] using k

theorem Gp.multi {s : Nat} {x : Nat} (ex : (h.edge s).src = some x) (sx : S x) (nx : h.Ng x) (m : Multi h s) : Multi h' s := by
  obtain ⟨y, d, ne, e1, m1, e2, m2⟩ := m
  rw [ex] at e1; cases e1
  have nv : x ≠ vn := fun q => g.notNg c (q ▸ nx)
  refine ⟨x, d, ne, by rw [g.edge]; exact ex, ?_, by rw [g.edge]; exact e2, ?_⟩ <;> rw [g.O c r sx nx.isB nv] <;> assumption

theorem Gp.ent {ins : List Nat} {a : Nat} (f : Ent h S ins a) (mA : A ∈ ins) (hL : ∀ d, L d → ∃ b, S b ∧ h.IsB b ∧ d ∈ h.O b) :
    Ent h' (Ext S h h') (vn :: ins) a := by
  have iA := f.ins A mA
  refine ⟨g.reg c r iA.sB iA.bB hL, .inl f.se, (g.ng c a).mpr f.ne, ?_, g.fresh c r hL f.se f.ne f.fr⟩
  intro B m
  rcases List.mem_cons.mp m with rfl | m
  · exact g.innVn c r iA.sB iA
  · exact g.inn c r (f.ins B m)

omit g c r in
theorem Gp.last {F N : Fr} {s : Nat} (g : Gp h h' F.S A vn L) (c : Clean h) (r : Reg h F.S) (sA : F.S A) (l : Last h F s) (ls : L s)
    (u : ∀ d, L d → (h.edge d).kind = .seq → d = s) (e1 : N.S = Ext F.S h h') (e2 : N.out = vn) (e3 : N.tidy = true → F.tidy = true)
    (e4 : N.multi = true → F.multi = true) (e5 : ∀ n, N.mark n → F.mark n) : Last h' N s := by
  obtain ⟨x, ex, mx, sx, nx⟩ := l.src r
  refine ⟨by rw [e1, e2]; exact g.outVn c r sA l.out ls u, ?_, fun t => g.multi c r ex sx nx (l.multi (e4 t)), ?_⟩
  · intro t
    obtain ⟨y, t⟩ := l.tidy (e3 t)
    have := t.src
    rw [ex] at this; cases this
    exact ⟨x, g.tidy c r sx nx t⟩
  · intro n m
    obtain ⟨y, ey, k⟩ := l.mark n (e5 n m)
    rw [ex] at ey; cases ey
    have nv : x ≠ vn := fun q => g.notNg c (q ▸ nx)
    exact ⟨x, by rw [g.edge]; exact ex, by rw [g.blk x nv]; exact k⟩

end gp

/-- Grouping a fragment. -/
theorem Gp.frag {h h' : Heap} {F : Fr} {a s A vn : Nat} {L : Nat → Prop} (g : Gp h h' F.S A vn L) (c : Clean h) (f : Frag h F a s) (mA : A ∈ F.ins)
    (hL : ∀ d, L d → ∃ b, F.S b ∧ h.IsB b ∧ d ∈ h.O b) (ls : F.one = true → L s) (u : F.one = true → ∀ d, L d → (h.edge d).kind = .seq → d = s)
    {run : Kd → List Nat → Prop} (hr : ∀ k ns, run k ns → Reach h' a vn k ns) :
    Frag h' { S := Ext F.S h h', ins := vn :: F.ins, out := vn, blks := F.ins ++ F.blks, one := F.one, tidy := F.tidy, multi := F.multi, mark := F.mark, head := F.head, run := run } a s := by
  have iA := f.ent.ins A mA
  refine ⟨g.ent c f.ent.reg f.ent mA hL, g.ext c f.ent.reg iA.sB, g.isBvn c f.ent.reg, ?_,
    fun o => g.last c f.ent.reg iA.sB (f.last o) (ls o) (u o) rfl rfl id id (fun _ => id), by simp, hr, f.head⟩
  intro b m
  rcases List.mem_append.mp m with m | m
  · exact ⟨.inl (f.ent.ins b m).sB, g.isB c f.ent.reg (f.ent.ins b m).bB⟩
  · exact ⟨.inl (f.blks b m).1, g.isB c f.ent.reg (f.blks b m).2⟩

/-- `grpBlock`. -/
theorem W.grp {h0 h : Heap} {F : Fr} {Fs : List Fr} (w : W h0 h (F :: Fs)) {A : Nat} (hA : A ∈ F.ins) (ne : A ≠ F.out) :
    ∃ S', W h0 (h.grp A F.out).1 ({ S := S', ins := (h.grp A F.out).2 :: F.ins, out := (h.grp A F.out).2, blks := F.ins ++ F.blks, one := F.one, tidy := F.tidy,
                                    multi := F.multi, mark := F.mark, head := F.head, run := F.run } :: Fs) := by
  obtain ⟨a, s, f⟩ := w.frag F (by simp)
  have iA := f.ent.ins A hA
  have g := grp_gp w.clean f.ent.reg iA.sB iA.bB f.sX f.bX ne
  have hL : ∀ d, (d ∈ h.xOut F.out ∨ d ∈ h.xJmp A) → ∃ b, F.S b ∧ h.IsB b ∧ d ∈ h.O b := by
    rintro d (k | k)
    · exact ⟨F.out, f.sX, f.bX, (mem_xOut.mp k).1⟩
    · exact ⟨A, iA.sB, iA.bB, (mem_xJmp.mp k).1⟩
  refine ⟨_, W.step (Os := [F]) w (g.clean w.clean f.ent.reg iA.sB) (by rw [g.next]; omega) (g.frame w.clean f.ent.reg iA.sB (fun i k => k.1) (fun i k => k.2 F (by simp)))
    (g.frag w.clean f hA hL (fun o => .inl (mem_xOut.mpr ⟨(f.last o).out.mem, (f.last o).out.hang⟩)) ?_ (run := F.run) ?_) ?_⟩
  · rintro o d (k | k) q
    · exact (f.last o).out.uniq d (mem_xOut.mp k).1 q
    · exact absurd q (mem_xJmp.mp k).2.1
  · intro k ns q
    exact g.reach w.clean f.ent.reg f.ent.se f.ent.ne (fun _ _ d md k2 _ => .inl (mem_xOut.mpr ⟨md, k2⟩)) (f.run k ns q)
  · rintro i (k | k)
    · exact .inl ⟨F, by simp, k⟩
    · exact .inr k.1

theorem grp_outs (h : Heap) (A X : Nat) : ((h.grp A X).1.blk (h.grp A X).2).outs = h.next := by
  rw [Heap.grp]
  by_cases k : (h.blk A).kind = .group
  · rw [if_pos k]
    show Block.outs (upd _ _ _ _) = _
    rw [upd_self]
  · rw [if_neg k]
    show Block.outs (upd h.blk h.next _ h.next) = _
    rw [upd_self]

/-- `grpBlock`, with the hanging jumps of another block of the fragment added (ctrlflow.go 479-480). -/
theorem W.grpAdd {h0 h : Heap} {F : Fr} {Fs : List Fr} (w : W h0 h (F :: Fs)) {A B : Nat} (hA : A ∈ F.ins) (ne : A ≠ F.out) (hB : B ∈ F.blks) (nB : A ≠ B) :
    ∃ S', W h0 ((h.grp A F.out).1.addOutlets (h.grp A F.out).2 ((h.grp A F.out).1.xJmp B))
      ({ S := S', ins := (h.grp A F.out).2 :: F.ins, out := (h.grp A F.out).2, blks := F.ins ++ F.blks, one := F.one, tidy := F.tidy, multi := F.multi, mark := F.mark, head := F.head,
         run := F.run } :: Fs) := by
  obtain ⟨a, s, f⟩ := w.frag F (by simp)
  have iA := f.ent.ins A hA
  have g0 := grp_gp w.clean f.ent.reg iA.sB iA.bB f.sX f.bX ne
  have nv : B ≠ (h.grp A F.out).2 := by
    rcases g0.place with ⟨k, _⟩ | k
    · rw [k]; exact nB.symm
    · rw [k]; exact Nat.ne_of_lt (f.ent.reg.lt B (f.blks B hB).1)
  have eq : (h.grp A F.out).1.xJmp B = h.xJmp B := by
    have := g0.O w.clean f.ent.reg (f.blks B hB).1 (f.blks B hB).2 nv
    simp only [Heap.O] at this
    simp only [Heap.xJmp, this, g0.edge]
  have g := g0.add (grp_outs h A F.out) ((h.grp A F.out).1.xJmp B)
  rw [eq] at g ⊢
  have hL : ∀ d, ((d ∈ h.xOut F.out ∨ d ∈ h.xJmp A) ∨ d ∈ h.xJmp B) → ∃ b, F.S b ∧ h.IsB b ∧ d ∈ h.O b := by
    rintro d ((k | k) | k)
    · exact ⟨F.out, f.sX, f.bX, (mem_xOut.mp k).1⟩
    · exact ⟨A, iA.sB, iA.bB, (mem_xJmp.mp k).1⟩
    · exact ⟨B, (f.blks B hB).1, (f.blks B hB).2, (mem_xJmp.mp k).1⟩
  refine ⟨_, W.step (Os := [F]) w (g.clean w.clean f.ent.reg iA.sB) (by rw [g.next]; omega)
    (g.frame w.clean f.ent.reg iA.sB (fun i k => k.1) (fun i k => k.2 F (by simp)))
    (g.frag w.clean f hA hL (fun o => .inl (.inl (mem_xOut.mpr ⟨(f.last o).out.mem, (f.last o).out.hang⟩))) ?_ (run := F.run) ?_) ?_⟩
  · rintro o d ((k | k) | k) q
    · exact (f.last o).out.uniq d (mem_xOut.mp k).1 q
    · exact absurd q (mem_xJmp.mp k).2.1
    · exact absurd q (mem_xJmp.mp k).2.1
  · intro k ns q
    exact g.reach w.clean f.ent.reg f.ent.se f.ent.ne (fun _ _ d md k2 _ => .inl (.inl (mem_xOut.mpr ⟨md, k2⟩))) (f.run k ns q)
  · rintro i (k | k)
    · exact .inl ⟨F, by simp, k⟩
    · exact .inr k.1

/-- The runs with a jump for `t` added at the end. -/
def Jumped (F : Fr) (t : Tag) : Kd → List Nat → Prop
  | .ex x, ns => F.run (.ex x) ns ∨ ∃ b, t.on b = true ∧ x.jmp b = true ∧ F.run (.ex { x with q := true }) ns
  | .pre, ns => F.run .pre ns

theorem Jo.reach {h h' : Heap} {S : Nat → Prop} {B x d s : Nat} {t : Tag} (j : Jo h h' B x d t) (r : Reg h S) (o : Out h S B s) (ex : (h.edge s).src = some x)
    {a X : Nat} {ns : List Nat} {k : Kd} (sa : S a) (ba : h.IsB a) (sX : S X) (bX : h.IsB X) (q : Reach h a X k ns) : Reach h' a X k ns := by
  cases k with
  | pre => exact j.pre r o ex sa ba q
  | ex x =>
    obtain ⟨e, m, k1, k2, k3⟩ := q
    have q := j.e r o ex sX bX m
    exact ⟨e, j.O.mpr (.inl m), by rw [q]; exact k1, by rw [q]; exact k2, j.pe r o ex sa ba k3⟩

theorem Jo.ent {h h' : Heap} {S : Nat → Prop} {B x d s : Nat} {t : Tag} (j : Jo h h' B x d t) (o : Out h S B s) (ex : (h.edge s).src = some x)
    (c : Clean h) {ins : List Nat} {a : Nat} (f : Ent h S ins a) : Ent h' (Ext S h h') ins a :=
  ⟨j.reg f.reg o ex c, .inl f.se, (j.ng a).mpr f.ne, fun A m => j.inn f.reg o ex (f.ins A m), j.fresh f.reg o ex c f.se f.ne f.fr⟩

/-- `newJmpOut`. -/
theorem W.jmpOut {ω : Order} (fair : ω.Fair) {h0 h : Heap} {F : Fr} {Fs : List Fr} (w : W h0 h (F :: Fs)) (one : F.one = true) (t : Tag) :
    ∃ h' S', h.newJmpOut ω F.out t = some h' ∧
      W h0 h' ({ S := S', ins := F.ins, out := F.out, blks := F.blks, multi := true, jump := if t.on true then some true else if t.on false then some false else none, mark := F.mark, head := F.head, run := Jumped F t } :: Fs) := by
  obtain ⟨a, s, f⟩ := w.frag F (by simp)
  have l := f.last one
  have o := l.out
  obtain ⟨x, ex, mx, sx, nx⟩ := l.src f.ent.reg
  obtain ⟨h', eq, j⟩ := newJmpOut_jo fair o ex t
  have o' := j.out f.ent.reg o ex o
  refine ⟨h', _, eq, W.step (Os := [F]) w (j.clean w.clean) (by rw [j.next]; omega) (j.frame f.ent.reg o ex (fun i k => k.1) (fun i k => k.2 F (by simp)))
    (N := { S := Ext F.S h h', ins := F.ins, out := F.out, blks := F.blks, multi := true, jump := if t.on true then some true else if t.on false then some false else none, mark := F.mark, head := F.head, run := Jumped F t }) (e := a) (s := s)
    ⟨j.ent o ex w.clean f.ent, .inl f.sX, (j.isB _).mpr f.bX, fun b m => ⟨.inl (f.blks b m).1, (j.isB b).mpr (f.blks b m).2⟩, fun _ => ⟨o', by simp, ?_, ?_⟩, ?_, ?_, f.head⟩ ?_⟩
  · intro _
    have := f.ent.reg.lt s (f.ent.reg.memO _ o.sX o.bX s o.mem)
    exact ⟨x, h.next, by omega, by rw [j.e f.ent.reg o ex o.sX o.bX o.mem]; exact ex, j.O.mpr (.inl mx), j.src, j.O.mpr (.inr ⟨rfl, .inl rfl⟩)⟩
  · intro n m
    obtain ⟨y, ey, k⟩ := l.mark n m
    exact ⟨y, by rw [j.e f.ent.reg o ex o.sX o.bX o.mem]; exact ey, by rw [j.blk]; exact k⟩
  · intro b q
    refine ⟨h.next, j.O.mpr (.inr ⟨rfl, .inr rfl⟩), j.kind, j.dst, ?_⟩
    rw [Tag.on_like j.tag]
    dsimp only at q
    split at q
    · next k => cases q; exact k
    · split at q
      · next k => cases q; exact k
      · cases q
  · intro k ns q
    have old : ∀ k, F.run k ns → Reach h' a F.out k ns := fun k q => j.reach f.ent.reg o ex f.ent.se f.ent.ne.isB o.sX o.bX (f.run k ns q)
    cases k with
    | pre => exact old _ q
    | ex x =>
      rcases q with q | ⟨b, tb, xb, q⟩
      · exact old _ q
      · obtain ⟨d, md, k1, k2, p⟩ := f.run _ ns q
        rcases k2 with ⟨_, k2⟩ | ⟨b', k, k2⟩
        · rw [o.uniq d md k2] at p
          exact ⟨h.next, j.O.mpr (.inr ⟨rfl, .inr rfl⟩), j.dst, .inr ⟨b, xb, j.kind, by rw [Tag.on_like j.tag]; exact tb⟩, j.peNew f.ent.reg o ex f.ent.se f.ent.ne.isB p⟩
        · have q := j.e f.ent.reg o ex o.sX o.bX md
          exact ⟨d, j.O.mpr (.inl md), by rw [q]; exact k1, .inr ⟨b', by cases b' <;> exact k, by rw [q]; exact k2⟩, j.pe f.ent.reg o ex f.ent.se f.ent.ne.isB p⟩
  · rintro i (k | k)
    · exact .inl ⟨F, by simp, k⟩
    · exact .inr k.1

/-- ctrlflow.go 305-308: the group for a logical operation. -/
def Heap.grpLogic (h : Heap) (lhs rhs : Nat) : Heap × Nat :=
  let (h, vn) := h.newGroup (h.blk lhs).ins
  let h := h.addOutlets vn (h.emap (h.blk rhs).outs)
  (h.addOutlets vn (h.xOut lhs), vn)

/-- ctrlflow.go 305-310: the group for any other operation. -/
def Heap.grpBin (h : Heap) (lhs rhs : Nat) : Heap × Nat :=
  let (h, vn) := h.newGroup (h.blk lhs).ins
  (h.setBlk vn { h.blk vn with outs := (h.blk rhs).outs }, vn)

theorem grpLogic_gp {h : Heap} {S : Nat → Prop} (c : Clean h) (r : Reg h S) {A X : Nat} (sA : S A) (bA : h.IsB A) (sX : S X) (bX : h.IsB X) :
    (h.grpLogic A X).2 = h.next ∧ Gp h (h.grpLogic A X).1 S A h.next (fun d => d ∈ h.O X ∨ d ∈ h.xOut A) := by
  refine ⟨rfl, ?_⟩
  obtain ⟨g, o⟩ := newGroup_gp (h := h) (S := S) (A := A)
  have nX : X ≠ h.next := Nat.ne_of_lt (r.lt X sX)
  have nA : A ≠ h.next := Nat.ne_of_lt (r.lt A sA)
  let h1 := (h.newGroup (h.blk A).ins).1
  have e1 : h1.emap (h1.blk X).outs = h.O X := g.O c r sX bX nX
  have g1 := g.add o (h1.emap (h1.blk X).outs)
  let h2 := h1.addOutlets h.next (h1.emap (h1.blk X).outs)
  have e2 : h2.xOut A = h.xOut A := by
    have := g1.O c r sA bA nA
    simp only [Heap.O] at this
    show (h2.emap (h2.blk A).outs).filter _ = _
    rw [this]; rfl
  have g2 := g1.add o (h2.xOut A)
  have eL : (fun d => ((False ∨ d ∈ h1.emap (h1.blk X).outs) ∨ d ∈ h2.xOut A)) = fun d => d ∈ h.O X ∨ d ∈ h.xOut A := by
    funext d; rw [e1, e2]; simp
  rw [eL] at g2
  exact g2

theorem grpBin_gp {h : Heap} {S : Nat → Prop} (r : Reg h S) {A X : Nat} (sX : S X) (bX : h.IsB X) :
    (h.grpBin A X).2 = h.next ∧ Gp h (h.grpBin A X).1 S A h.next (fun d => d ∈ h.O X) := by
  refine ⟨rfl, ?_⟩
  obtain ⟨g, o⟩ := newGroup_gp (h := h) (S := S) (A := A)
  have nX : X ≠ h.next := Nat.ne_of_lt (r.lt X sX)
  let h1 := (h.newGroup (h.blk A).ins).1
  have eX : h1.blk X = h.blk X := g.blk X nX
  have eN : (h.grpBin A X).1.blk h.next = { h1.blk h.next with outs := (h1.blk X).outs } := upd_self _ _ _
  refine ⟨.inr rfl, rfl, by rw [eN]; exact g.kind, by rw [eN]; exact g.ins, .inr ⟨X, sX, bX, by rw [eN, eX]⟩, ?_, rfl, g.emap, ?_⟩
  · intro b k
    show upd _ _ _ _ = _
    rw [upd_ne _ _ k]; exact g.blk b k
  · intro d
    simp only [Heap.O, eN, eX]
    show d ∈ h1.emap _ ↔ _
    rw [g.emap _ (Nat.ne_of_lt (r.lt _ (r.outs X sX bX)))]

/-- The group for an operation that always evaluates both operands. -/
theorem W.grpBin {h0 h : Heap} {F : Fr} {Fs : List Fr} (w : W h0 h (F :: Fs)) {A : Nat} (hA : A ∈ F.ins) :
    ∃ S', W h0 (h.grpBin A F.out).1 ({ S := S', ins := (h.grpBin A F.out).2 :: F.ins, out := (h.grpBin A F.out).2, blks := F.ins ++ F.blks, one := F.one, tidy := F.tidy,
                                       multi := F.multi, mark := F.mark, head := F.head, run := F.run } :: Fs) := by
  obtain ⟨a, s, f⟩ := w.frag F (by simp)
  have iA := f.ent.ins A hA
  obtain ⟨ev, g⟩ := grpBin_gp f.ent.reg (A := A) f.sX f.bX
  rw [ev]
  have hL : ∀ d, d ∈ h.O F.out → ∃ b, F.S b ∧ h.IsB b ∧ d ∈ h.O b := fun d k => ⟨F.out, f.sX, f.bX, k⟩
  refine ⟨_, W.step (Os := [F]) w (g.clean w.clean f.ent.reg iA.sB) (by rw [g.next]; omega) (g.frame w.clean f.ent.reg iA.sB (fun i k => k.1) (fun i k => k.2 F (by simp)))
    (g.frag w.clean f hA hL (fun o => (f.last o).out.mem) (fun o => (f.last o).out.uniq) (run := F.run) ?_) ?_⟩
  · intro k ns q
    exact g.reach w.clean f.ent.reg f.ent.se f.ent.ne (fun _ _ d md _ _ => md) (f.run k ns q)
  · rintro i (k | k)
    · exact .inl ⟨F, by simp, k⟩
    · exact .inr k.1

/-- The walks through a logical operation: those that leave after the left operand, and those that go on. -/
def LogicRun (or : Bool) (F G : Fr) : Kd → List Nat → Prop
  | .pre, ns => Seqd (F.run (.ex { q := true, f := or })) F G .pre ns
  | .ex x, ns => Seqd (F.run (.ex { q := true, f := or })) F G (.ex x) ns ∨ (x.jmp or = true ∧ F.run (.ex { q := true, t := or, f := !or }) ns)

/-- The links made for a logical operation. -/
def Heap.linkLogic (ω : Order) (h : Heap) (or : Bool) (lhs rhs : Nat) : Option Heap :=
  (h.newJmpOut ω lhs (if or then { t := true } else { f := true })).bind fun h =>
  (h.link ω lhs .seq {} .seq {} rhs {}).bind fun h =>
  if or then h.link ω lhs .jmp { f := true } .seq {} rhs {} else some h

theorem W.logic {ω : Order} (fair : ω.Fair) {h0 h : Heap} {F G : Fr} {Fs : List Fr} (w : W h0 h (F :: G :: Fs)) (oF : F.one = true) (oG : G.one = true)
    (hF : F.out ∈ F.ins) (hG : G.out ∈ G.ins) (or : Bool) :
    ∃ h' S', h.linkLogic ω or F.out G.out = some h' ∧
      W h0 (h'.grpLogic F.out G.out).1 ({ S := S', ins := (h'.grpLogic F.out G.out).2 :: F.ins, out := (h'.grpLogic F.out G.out).2, head := F.head, run := LogicRun or F G } :: Fs) := by
  let tg : Tag := if or then { t := true } else { f := true }
  obtain ⟨h1, S1, e1, w1⟩ := w.jmpOut fair oF tg
  let F1 : Fr := { S := S1, ins := F.ins, out := F.out, blks := F.blks, multi := true, jump := if tg.on true then some true else if tg.on false then some false else none, mark := F.mark, head := F.head, run := Jumped F tg }
  obtain ⟨a, s1, f⟩ := w1.frag F1 (by simp [F1])
  obtain ⟨e, s2, g⟩ := w1.frag G (by simp)
  have lF := f.last rfl
  have oF := lF.out
  have oG := (g.last oG).out
  obtain ⟨x, ex, no⟩ := (lF.multi rfl).no
  have dis : ∀ i, S1 i → ¬ G.S i := (List.pairwise_cons.mp w1.dis).1 G (by simp)
  have r := f.ent.reg.union g.ent.reg dis
  have inB := g.ent.ins _ hG
  have inB' : In h1 (Un S1 G.S) G.out e := ⟨.inr inB.sB, inB.bB, .inr inB.se, inB.ne, inB.ins, inB.seq⟩
  have sX : S1 F.out := f.sX
  have bX : h1.IsB F.out := f.bX
  have tgb : tg.on or = true := by cases or <;> rfl
  -- the links
  have : ∃ h2, ((h1.link ω F.out .seq {} .seq {} G.out {}).bind fun h => if or then h.link ω F.out .jmp { f := true } .seq {} G.out {} else some h) = some h2 ∧
      EM h1 h2 (Un S1 G.S) e (fun d => d = s1 ∨ (or = true ∧ Cho h1 F.out .jmp { f := true } d)) := by
    cases or with
    | false =>
      obtain ⟨h2, e2, m, _⟩ := link_em fair w1.clean r (.inl sX) bX inB' (fk := .seq) (ft := {}) (tk := .seq) (tt := {}) rfl (fl := {}) rfl
        ⟨rfl, .inr (.inr (.inr ⟨x, s1, S1, oF, ex, no⟩))⟩
      refine ⟨h2, by rw [e2]; rfl, ?_⟩
      have eq : Cho h1 F.out .seq {} = fun d => d = s1 ∨ (false = true ∧ Cho h1 F.out .jmp { f := true } d) := by
        rw [show Cho h1 F.out .seq {} = _ from oF.cho]; funext d; simp
      rw [← eq]; exact m
    | true =>
      obtain ⟨h2, h3, e2, e3, m⟩ := link2r_em fair w1.clean f.ent.reg g.ent.reg dis oF ex no inB { f := true } {} {} rfl
      refine ⟨h3, by rw [show F1.out = F.out from rfl] at e2; rw [e2]; exact e3, ?_⟩
      have eq : (fun d => d = s1 ∨ Cho h1 F1.out .jmp { f := true } d) = fun d => d = s1 ∨ (true = true ∧ Cho h1 F.out .jmp { f := true } d) := by
        funext d; simp [F1]
      rw [← eq]; exact m
  obtain ⟨h2, e2, m⟩ := this
  have l := m.ls w1.clean r g.ent.se g.ent.ne
  have hQ : ∀ d, (d = s1 ∨ (or = true ∧ Cho h1 F.out .jmp { f := true } d)) → S1 d := by
    rintro d (rfl | ⟨_, k⟩)
    · exact f.ent.reg.memO _ oF.sX oF.bX _ oF.mem
    · exact f.ent.reg.memO _ oF.sX oF.bX _ k.1
  have en : Ent h2 (Ext (Un S1 G.S) h1 h2) F.ins a := l.ent w1.clean g.ent.reg g.ent.se dis f.ent
  have oV := l.outV g.ent.reg dis hQ oG
  have seqd : ∀ k ns, Seqd (F.run (.ex { q := true, f := or })) F G k ns → Reach h2 a G.out k ns := by
    rintro k ns (⟨n1, n2, rfl, q, r⟩ | ⟨rfl, q⟩)
    · have : ∃ d, PE h1 a n1 d ∧ (d = s1 ∨ (or = true ∧ Cho h1 F.out .jmp { f := true } d)) := by
        obtain ⟨d, md, k1, k2, p⟩ := f.run (.ex { q := true, f := or }) n1 (.inl q)
        refine ⟨d, p, ?_⟩
        rcases k2 with ⟨_, k2⟩ | ⟨b, k, k2, k3⟩
        · exact .inl (oF.uniq d md k2)
        · cases b with
          | true => cases k
          | false => exact .inr ⟨k, md, ⟨k2, .inr (Tag.meets_on k3 rfl)⟩, k1⟩
      obtain ⟨d, p, q⟩ := this
      exact l.reachV g.ent.reg dis hQ f.ent.se f.ent.ne g.sX g.bX p q (g.run k n2 r)
    · exact l.tAp a ns f.ent.se f.ent.ne (f.run .pre ns q)
  -- the group
  have iF := en.ins F.out hF
  obtain ⟨ev, gp⟩ := grpLogic_gp l.clean en.reg (A := F.out) (X := G.out) iF.sB iF.bB oV.sX oV.bX
  refine ⟨h2, Ext (Ext (Un S1 G.S) h1 h2) h2 (h2.grpLogic F.out G.out).1, ?_, ?_⟩
  · rw [Heap.linkLogic, e1, Option.bind_some, e2]
  rw [ev]
  have eO : h2.O F.out = h1.O F.out := m.O r (.inr g.ent.se) g.ent.ne (.inl sX) bX
  have hL : ∀ d, (d ∈ h2.O G.out ∨ d ∈ h2.xOut F.out) → ∃ b, Ext (Un S1 G.S) h1 h2 b ∧ h2.IsB b ∧ d ∈ h2.O b := by
    rintro d (k | k)
    · exact ⟨G.out, oV.sX, oV.bX, k⟩
    · exact ⟨F.out, iF.sB, iF.bB, (mem_xOut.mp k).1⟩
  have u : ∀ d, (d ∈ h2.O G.out ∨ d ∈ h2.xOut F.out) → (h2.edge d).kind = .seq → d = s2 := by
    rintro d (k | k) q
    · exact oV.uniq d k q
    · obtain ⟨md, hd⟩ := mem_xOut.mp k
      rw [eO] at md
      rw [l.kind d (f.ent.reg.lt d (f.ent.reg.memO _ sX bX d md))] at q
      have := oF.uniq d md q
      rw [this, m.hit r (.inr g.ent.se) g.ent.ne (.inl rfl)] at hd
      cases hd
  have oN := gp.outVn l.clean en.reg iF.sB oV (.inl oV.mem) u
  refine W.step (N := { S := Ext (Ext (Un S1 G.S) h1 h2) h2 (h2.grpLogic F.out G.out).1, ins := h2.next :: F.ins, out := h2.next, head := F.head, run := LogicRun or F G }) (Os := [F1, G]) w1
    (gp.clean l.clean en.reg iF.sB) (by rw [gp.next]; exact Nat.le_succ_of_le l.next) ?_ (e := a) (s := s2)
    ⟨gp.ent l.clean en.reg en hF hL, oN.sX, oN.bX, by simp, fun _ => ⟨oN, by simp, by simp, by simp⟩, by simp, ?_, f.head⟩ ?_
  · refine (l.agree.mono (fun i k => ⟨k.1, k.2 F1 (by simp), k.2 G (by simp)⟩)).trans (gp.frame l.clean en.reg iF.sB ?_ ?_)
    · intro i k; exact Nat.lt_of_lt_of_le k.1 l.next
    · rintro i k ((q | q) | q)
      · exact k.2 F1 (by simp) q
      · exact k.2 G (by simp) q
      · exact absurd k.1 (Nat.not_lt.mpr q.1)
  · intro k ns q
    have seqd : Seqd (F.run (.ex { q := true, f := or })) F G k ns → Reach (h2.grpLogic F.out G.out).1 a h2.next k ns := fun q =>
      gp.reach l.clean en.reg en.se en.ne (fun _ _ d md _ _ => .inl md) (seqd k ns q)
    cases k with
    | pre => exact seqd q
    | ex x =>
      rcases q with q | ⟨xb, q⟩
      · exact seqd q
      · have j1 := f.run (.ex { t := or, f := !or }) ns (.inr ⟨or, tgb, by cases or <;> rfl, q⟩)
        have j2 := l.reachU f.ent.reg f.ent.se f.ent.ne sX bX (by
          rintro y ey d md ok
          cases ey
          rcases ok with ⟨k, _⟩ | ⟨b, k, k2, on⟩
          · cases k
          · have : b = or := by cases b <;> cases or <;> simp_all [Ex.jmp]
            subst this
            rintro (rfl | ⟨rfl, z⟩)
            · rw [oF.kind] at k2; cases k2
            · have := z.2.1.2
              simp only [Tag.on, Tag.bit, Bool.not_true, Bool.and_eq_true, Bool.not_eq_true'] at on
              simp [Tag.isNone, Tag.meets, on] at this) j1
        obtain ⟨d, md, k1, k2, p⟩ := gp.reach l.clean en.reg en.se en.ne (fun _ _ d md k2 _ => .inr (mem_xOut.mpr ⟨md, k2⟩)) j2
        refine ⟨d, md, k1, ?_, p⟩
        rcases k2 with ⟨k, _⟩ | ⟨b, k, k2⟩
        · cases k
        · have : b = or := by cases b <;> cases or <;> simp_all [Ex.jmp]
          subst this
          exact .inr ⟨b, xb, k2⟩
  · rintro i (((k | k) | k) | k)
    · exact .inl ⟨F1, by simp, k⟩
    · exact .inl ⟨G, by simp, k⟩
    · exact .inr k.1
    · exact .inr (Nat.le_trans l.next k.1)

end Mole.Cfg
