import Verif.Graph.CfgClose
import Verif.Graph.CfgBuild

/-! What the handlers do to the pieces of a graph under construction. -/

namespace Mole.Cfg

/-- A piece as it lies on a stack. -/
structure Good (F : Fr) : Prop where
  one : F.one = true
  mem : F.out ∈ F.ins

/-- A piece that holds no node of the tree. -/
structure Blank (F : Fr) : Prop extends Good F where
  run : ∀ x : Ex, x.q = true → F.run (.ex x) []
  nil : F.run .pre []

/-- One after the other. -/
def Then (p q : List Nat → Prop) (ns : List Nat) : Prop := ∃ n1 n2, ns = n1 ++ n2 ∧ p n1 ∧ q n2

theorem Seqd.blank {E G : Fr} {k : Kd} {ns : List Nat} (b : Blank E) (q : G.run k ns) : Seqd (E.run .seq) E G k ns := .inl ⟨[], ns, rfl, b.run _ rfl, q⟩

theorem Seqd.fin {p : List Nat → Prop} {F X : Fr} {x : Ex} {ns : List Nat} (b : Blank X) (xq : x.q = true) (q : p ns) : Seqd p F X (.ex x) ns :=
  .inl ⟨ns, [], by simp, q, b.run x xq⟩

theorem Seqd.pre {p : List Nat → Prop} {F G : Fr} {ns : List Nat} (q : F.run .pre ns) : Seqd p F G .pre ns := .inr ⟨rfl, q⟩

theorem Seqd.cat {p : List Nat → Prop} {F G : Fr} {k : Kd} {n1 n2 : List Nat} (q : p n1) (r : G.run k n2) : Seqd p F G k (n1 ++ n2) := .inl ⟨n1, n2, rfl, q, r⟩

/-- A new block without nodes of the tree. -/
theorem W.blank {h0 h : Heap} {Fs : List Fr} (w : W h0 h Fs) (k : BK) (nodes : List Node) (kk : k = .basic ∨ k = .start) (v : vis nodes = []) :
    ∃ X : Fr, X.out = (h.newBlk k nodes).2 ∧ Blank X ∧ X.tidy = true ∧ (∀ n ∈ nodes, X.mark n) ∧ X.head = some (h.newBlk k nodes).2 ∧ W h0 (h.newBlk k nodes).1 (X :: Fs) := by
  obtain ⟨_, w⟩ := w.newBlk k nodes kk
  refine ⟨_, rfl, ⟨⟨?_, ?_⟩, ?_, ?_⟩, ?_, ?_, ?_, w⟩
  · rfl
  · exact List.mem_singleton.mpr rfl
  · exact fun x q => ⟨q, v.symm⟩
  · exact List.nil_prefix
  · rfl
  · exact fun _ k => k
  · rfl

theorem W.exit {h0 h : Heap} {Fs : List Fr} (w : W h0 h Fs) (id : Nat) :
    ∃ X : Fr, X.out = (h.exit id).2 ∧ Blank X ∧ (X.tidy = true ∧ X.mark (.exit id)) ∧ W h0 (h.exit id).1 (X :: Fs) := by
  obtain ⟨X, e, b, t, m, _, w⟩ := w.blank .basic [.exit id] (.inl rfl) rfl
  exact ⟨X, e, b, ⟨t, m _ (by simp)⟩, w⟩

theorem full_none (b : Bool) : ({} : Tag).isNone = true ∨ ({} : Tag).bit b = true := .inl rfl

theorem full_both (b : Bool) : ({ t := true, f := true } : Tag).isNone = true ∨ ({ t := true, f := true } : Tag).bit b = true := .inr (by cases b <;> rfl)

section

variable {ω : Order} (fair : ω.Fair) {h0 h : Heap} {E L R : Fr} {Fs : List Fr}

include fair

theorem W.both {F G : Fr} (w : W h0 h (F :: G :: Fs)) {B : Nat} (hB : B ∈ G.ins) (ft : Tag) (nc : ft.cut = false) (full : ∀ b, ft.isNone = true ∨ ft.bit b = true)
    (sep : Bool) (o : sep = true ∨ F.one = true ∨ ∃ b, F.jump = some b) :
    ∃ h' S', h.linkBoth ω F.out ft B sep = some h' ∧ (∀ A ∈ F.ins, A ≠ G.out) ∧
      W h0 h' ({ S := S', ins := F.ins, out := G.out, blks := F.out :: G.out :: (F.ins ++ F.blks ++ G.blks), one := G.one, tidy := G.tidy, multi := G.multi,
                 mark := G.mark, head := F.head, run := Seqd (Thru F) F G } :: Fs) := by
  obtain ⟨h1, h', S', e1, e2, n, w⟩ := w.link2 fair hB ft nc full sep o
  exact ⟨h', S', by rw [Heap.linkBoth, e1]; exact e2, n, w⟩

theorem W.unary (w : W h0 h (L :: E :: Fs)) (gL : Good L) (bE : Blank E) (id : Nat) :
    ∃ h' N, h.afterUnary ω id E.out L.out = some (h', N.out) ∧ W h0 h' (N :: Fs) ∧ Good N ∧
      (∀ x ns, x.q = true → L.run .seq ns → N.run (.ex x) ns) ∧ (∀ ns, L.run .pre ns → N.run .pre ns) := by
  obtain ⟨X, eX, bX, _, w⟩ := w.exit id
  obtain ⟨h1, S1, e1, n1, w⟩ := w.rev3.link fair bE.one gL.mem .seq {}
  obtain ⟨S2, w⟩ := w.grp (A := E.out) bE.mem (n1 _ bE.mem)
  obtain ⟨h3, S3, e3, n3, w⟩ := w.link fair gL.one bX.mem .seq {}
  obtain ⟨S4, w⟩ := w.grp (A := E.out) (by simp [bE.mem]) (n3 _ (by simp [bE.mem]))
  dsimp only at e1 e3
  refine ⟨_, _, ?_, w, ⟨bX.one, by simp⟩, ?_, ?_⟩
  · simp only [Heap.afterUnary, ← eX, e1, e3, Option.bind_some, Option.map_some]
  · exact fun x ns xq q => .fin bX xq (.blank bE q)
  · exact fun ns q => .pre (.blank bE q)

theorem W.wrap (w : W h0 h (L :: E :: Fs)) (gL : Good L) (bE : Blank E) (id : Nat) :
    ∃ h' N, h.afterWrap ω id E.out L.out = some (h', N.out) ∧ W h0 h' (N :: Fs) ∧ Good N ∧
      (∀ x ns, x.q = true → Thru L ns → N.run (.ex x) ns) ∧ (∀ ns, L.run .pre ns → N.run .pre ns) := by
  obtain ⟨h1, S1, e1, n1, w⟩ := w.swap.link fair bE.one gL.mem .seq {}
  obtain ⟨X, eX, bX, _, w⟩ := w.exit id
  obtain ⟨h3, S3, e3, n3, w⟩ := w.swap.both fair bX.mem {} rfl (full_none) false (.inr (.inl gL.one))
  obtain ⟨S4, w⟩ := w.grp (A := E.out) bE.mem (n3 _ bE.mem)
  dsimp only at e1 e3
  refine ⟨_, _, ?_, w, ⟨bX.one, by simp⟩, ?_, ?_⟩
  · simp only [Heap.afterWrap, e1, ← eX, e3, Option.bind_some, Option.map_some]
  · exact fun x ns xq ⟨y, q⟩ => .fin bX xq ⟨y, .blank bE q⟩
  · exact fun ns q => .pre (.blank bE q)

theorem W.chain (w : W h0 h (L :: E :: Fs)) (gL : Good L) (bE : Blank E) (id : Nat) :
    ∃ h' N, h.afterChain ω id E.out L.out = some (h', N.out) ∧ W h0 h' (N :: Fs) ∧ Good N ∧
      (∀ x ns, x.q = true → Thru L ns → N.run (.ex x) ns) ∧ (∀ ns, L.run .pre ns → N.run .pre ns) := by
  obtain ⟨X, eX, bX, _, w⟩ := w.exit id
  obtain ⟨h1, S1, e1, n1, w⟩ := w.rev3.link fair bE.one gL.mem .seq {}
  obtain ⟨S2, w⟩ := w.grp (A := E.out) bE.mem (n1 _ bE.mem)
  obtain ⟨h3, S3, e3, n3, w⟩ := w.both fair bX.mem {} rfl (full_none) false (.inr (.inl gL.one))
  obtain ⟨S4, w⟩ := w.grp (A := E.out) (by simp [bE.mem]) (n3 _ (by simp [bE.mem]))
  dsimp only at e1 e3
  refine ⟨_, _, ?_, w, ⟨bX.one, by simp⟩, ?_, ?_⟩
  · simp only [Heap.afterChain, ← eX, e1, e3, Option.bind_some, Option.map_some]
  · exact fun x ns xq ⟨y, q⟩ => .fin bX xq ⟨y, .blank bE q⟩
  · exact fun ns q => .pre (.blank bE q)

theorem W.bin (w : W h0 h (R :: L :: E :: Fs)) (gR : Good R) (gL : Good L) (bE : Blank E) (id : Nat) :
    ∃ h' N, h.afterBin ω id E.out L.out R.out = some (h', N.out) ∧ W h0 h' (N :: Fs) ∧ Good N ∧
      (∀ x ns, x.q = true → Then (L.run .seq) (R.run .seq) ns → N.run (.ex x) ns) ∧ (∀ ns, (L.run .pre ns ∨ Then (L.run .seq) (R.run .pre) ns) → N.run .pre ns) := by
  obtain ⟨h1, S1, e1, n1, w⟩ := w.rev3.link fair bE.one gL.mem .none {}
  obtain ⟨S2, w⟩ := w.grp (A := E.out) bE.mem (n1 _ bE.mem)
  obtain ⟨h3, S3, e3, n3, w⟩ := w.link fair gL.one gR.mem .seq {}
  obtain ⟨S4, w⟩ := w.grpBin (A := (h1.grp E.out L.out).2) (by simp)
  obtain ⟨X, eX, bX, _, w⟩ := w.exit id
  obtain ⟨h5, S5, e5, n5, w⟩ := w.swap.link fair gR.one bX.mem .seq {}
  obtain ⟨S6, w⟩ := w.grp (A := (h3.grpBin (h1.grp E.out L.out).2 R.out).2) (by simp) (n5 _ (by simp))
  dsimp only at e1 e3 e5 eX
  refine ⟨_, _, ?_, w, ⟨bX.one, by simp⟩, ?_, ?_⟩
  · simp only [Heap.afterBin, e1, e3, Option.bind_some]
    simp only [Heap.grpBin] at eX e5 ⊢
    simp only [← eX, e5, Option.map_some]
  · rintro x ns xq ⟨n1, n2, rfl, p, q⟩
    exact .fin bX xq (.cat (.blank bE p) q)
  · rintro ns (p | ⟨n1, n2, rfl, p, q⟩)
    · exact .pre (.pre (.blank bE p))
    · exact .pre (.cat (.blank bE p) q)

theorem W.logicOp (w : W h0 h (R :: L :: E :: Fs)) (gR : Good R) (gL : Good L) (bE : Blank E) (stmt : Bool) (op : LOp) (id : Nat) :
    ∃ h' N, h.afterLogic ω stmt op id E.out L.out R.out = some (h', N.out) ∧ W h0 h' (N :: Fs) ∧ Good N ∧
      (∀ k ns, LogicRun (decide (op ≠ .and)) L R k ns →
        match k with
        | .ex x => if stmt then ∀ y : Ex, y.q = true → N.run (.ex y) ns else N.run (.ex x) ns
        | .pre => N.run .pre ns) := by
  obtain ⟨h1, S1, e1, n1, w⟩ := w.rev3.link fair bE.one gL.mem .none {}
  obtain ⟨S2, w⟩ := w.grp (A := E.out) bE.mem (n1 _ bE.mem)
  obtain ⟨h3, S3, e3, w⟩ := w.logic fair gL.one gR.one (by simp) gR.mem (decide (op ≠ .and))
  obtain ⟨X, eX, bX, _, w⟩ := w.exit id
  dsimp only at e1 e3 eX w
  have lift : ∀ k ns, LogicRun (decide (op ≠ .and)) L R k ns → LogicRun (decide (op ≠ .and))
      { S := S2, ins := (h1.grp E.out L.out).2 :: E.ins, out := (h1.grp E.out L.out).2, blks := E.ins ++ (E.out :: L.out :: (E.ins ++ E.blks ++ L.blks)), one := L.one,
        tidy := L.tidy, multi := L.multi, mark := L.mark, head := E.head, run := Seqd (E.run .seq) E L } R k ns := by
    have go : ∀ k ns p, Seqd (L.run p) L R k ns → Seqd (Seqd (E.run .seq) E L p)
      { S := S2, ins := (h1.grp E.out L.out).2 :: E.ins, out := (h1.grp E.out L.out).2, blks := E.ins ++ (E.out :: L.out :: (E.ins ++ E.blks ++ L.blks)), one := L.one,
        tidy := L.tidy, multi := L.multi, mark := L.mark, head := E.head, run := Seqd (E.run .seq) E L } R k ns := by
      rintro k ns p (⟨n1, n2, rfl, p, q⟩ | ⟨rfl, q⟩)
      · exact .inl ⟨n1, n2, rfl, .blank bE p, q⟩
      · exact .inr ⟨rfl, .blank bE q⟩
    intro k ns q
    cases k with
    | pre => exact go _ _ _ q
    | ex x => exact q.imp (go _ _ _) (fun ⟨a, b⟩ => ⟨a, .blank bE b⟩)
  rw [Heap.linkLogic] at e3
  obtain ⟨h4, e4, e3⟩ := Option.bind_eq_some_iff.mp e3
  obtain ⟨h5, e5, e6⟩ := Option.bind_eq_some_iff.mp e3
  have tg : (if decide (op ≠ .and) = true then ({ t := true } : Tag) else { f := true }) = if op = .and then { f := true } else { t := true } := by cases op <;> rfl
  rw [tg] at e4
  have e6 : (if op = .and then some h5 else h5.link ω (h1.grp E.out L.out).2 .jmp { f := true } .seq {} R.out {}) = some h3 := by cases op <;> exact e6
  cases stmt with
  | true =>
    obtain ⟨h7, S7, e7, n7, w⟩ := w.swap.both fair bX.mem { t := true, f := true } rfl full_both false (.inr (.inl rfl))
    obtain ⟨S8, w⟩ := w.grp (A := (h3.grpLogic (h1.grp E.out L.out).2 R.out).2) (by simp) (n7 _ (by simp))
    dsimp only at e7
    refine ⟨_, _, ?_, w, ⟨bX.one, by simp⟩, ?_⟩
    · simp only [Heap.afterLogic, e1, e4, e5, e6, Option.bind_some]
      rw [Heap.linkBoth] at e7
      obtain ⟨h9, e9, e7⟩ := Option.bind_eq_some_iff.mp e7
      simp only [Heap.grpLogic] at eX e7 e9 ⊢
      simp only [← eX, e9, e7, Option.map_some, if_true, Option.bind_some]
    · intro k ns q
      have q := lift k ns q
      cases k with
      | pre => exact .pre q
      | ex x => exact fun y yq => .fin bX yq ⟨x, q⟩
  | false =>
    obtain ⟨h7, S7, e7, w⟩ := w.swap.close fair rfl bX.one (by simp) bX.mem bX.run
    dsimp only at e7
    refine ⟨_, _, ?_, w, ⟨rfl, by simp⟩, ?_⟩
    · simp only [Heap.afterLogic, e1, e4, e5, e6, Option.bind_some]
      simp only [Heap.grpLogic] at eX e7 ⊢
      simp only [← eX, e7, Option.map_some, Bool.false_eq_true, if_false, Option.bind_some]
    · intro k ns q
      have q := lift k ns q
      cases k with
      | pre => exact q
      | ex x => exact q

end

end Mole.Cfg
