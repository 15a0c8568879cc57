import Verif.Graph.CfgHandle2
import Verif.Graph.CfgLoop2

/-! What the handlers do to the pieces of a graph under construction: statements. -/

namespace Mole.Cfg

/-- A piece as it lies on the stack of statements, with the head it must keep. -/
structure Tail (hd : Option Nat) (F : Fr) : Prop extends Good F where
  tidy : F.tidy = true
  head : F.head = hd

section

variable {ω : Order} (fair : ω.Fair) {h0 h : Heap} {E L R P : Fr} {Fs : List Fr} {hd : Option Nat}

include fair

/-- What is done before a statement that follows another one. -/
theorem W.follow (w : W h0 h (P :: Fs)) (tP : Tail hd P) (id : Nat) :
    ∃ h' N, (((h.enter id).1.link ω P.out .seq {} .seq {} (h.enter id).2 {}).map fun h' => h'.grp P.out (h.enter id).2) = some (h', N.out) ∧ W h0 h' (N :: Fs) ∧ Tail hd N ∧
      (∀ x ns, x.q = true → P.run .seq ns → N.run (.ex x) ns) ∧ (∀ ns, P.run .pre ns → N.run .pre ns) := by
  obtain ⟨X, eX, bX, tX, mX, _, w⟩ := w.blank .basic [.enter id] (.inl rfl) rfl
  obtain ⟨h1, S1, e1, n1, w⟩ := w.swap.link fair tP.one bX.mem .seq {}
  obtain ⟨S2, w⟩ := w.grp (A := P.out) tP.mem (n1 _ tP.mem)
  refine ⟨_, _, ?_, w, ⟨⟨bX.one, by simp⟩, tX, tP.head⟩, ?_, ?_⟩
  · simp only [Heap.enter, ← eX, e1, Option.map_some]
  · exact fun x ns xq q => .fin bX xq q
  · exact fun ns q => .pre q

theorem W.exprStmt (w : W h0 h (L :: P :: Fs)) (gL : Good L) (tP : Tail hd P) (id : Nat) :
    ∃ h' N, h.afterExprStmt ω id P.out L.out = some (h', N.out) ∧ W h0 h' (N :: Fs) ∧ Tail hd N ∧
      (∀ x ns, x.q = true → Then (P.run .seq) (Thru L) ns → N.run (.ex x) ns) ∧ (∀ ns, (P.run .pre ns ∨ Then (P.run .seq) (L.run .pre) ns) → N.run .pre ns) := by
  obtain ⟨h1, S1, e1, n1, w⟩ := w.swap.linkForce fair tP.one tP.tidy gL.mem .seq {}
  obtain ⟨S2, w⟩ := w.grp (A := P.out) tP.mem (n1 _ tP.mem)
  obtain ⟨X, eX, bX, mX, w⟩ := w.exit id
  obtain ⟨h3, S3, e3, n3, w⟩ := w.swap.both fair bX.mem { t := true, f := true } rfl full_both false (.inr (.inl gL.one))
  obtain ⟨S4, w⟩ := w.grp (A := P.out) (by simp [tP.mem]) (n3 _ (by simp [tP.mem]))
  dsimp only at e1 e3 eX
  refine ⟨_, _, ?_, w, ⟨⟨bX.one, by simp⟩, mX.1, tP.head⟩, ?_, ?_⟩
  · simp only [Heap.afterExprStmt, e1, ← eX, e3, Option.bind_some, Option.map_some]
  · rintro x ns xq ⟨n1, n2, rfl, p, y, q⟩
    exact .fin bX xq ⟨y, .cat p q⟩
  · rintro ns (p | ⟨n1, n2, rfl, p, q⟩)
    · exact .pre (.pre p)
    · exact .pre (.cat p q)

theorem W.decBare (w : W h0 h (L :: E :: P :: Fs)) (gL : Good L) (bE : Blank E) (tP : Tail hd P) (id : Nat) :
    ∃ h' N, h.afterDec ω id E.out L.out none P.out = some (h', N.out) ∧ W h0 h' (N :: Fs) ∧ Tail hd N ∧
      (∀ x ns, x.q = true → Then (P.run .seq) (L.run .seq) ns → N.run (.ex x) ns) ∧ (∀ ns, (P.run .pre ns ∨ Then (P.run .seq) (L.run .pre) ns) → N.run .pre ns) := by
  obtain ⟨h1, S1, e1, n1, w⟩ := w.swap.link fair bE.one gL.mem .seq {}
  obtain ⟨X, eX, bX, mX, w⟩ := w.exit id
  obtain ⟨h2, S2, e2, n2, w⟩ := w.swap.link fair gL.one bX.mem .seq {}
  obtain ⟨S3, w⟩ := w.grp (A := E.out) bE.mem (n2 _ bE.mem)
  obtain ⟨h4, S4, e4, n4, w⟩ := w.swap.link fair tP.one (B := (h2.grp E.out X.out).2) (by simp) .seq {}
  obtain ⟨S5, w⟩ := w.grp (A := P.out) tP.mem (n4 _ tP.mem)
  dsimp only at e1 e2 e4 eX
  refine ⟨_, _, ?_, w, ⟨⟨bX.one, by simp⟩, mX.1, tP.head⟩, ?_, ?_⟩
  · simp only [Heap.afterDec, e1, ← eX, e2, e4, Option.bind_some, Option.map_some]
  · rintro x ns xq ⟨n1, n2, rfl, p, q⟩
    exact .cat p (.fin bX xq (.blank bE q))
  · rintro ns (p | ⟨n1, n2, rfl, p, q⟩)
    · exact .pre p
    · exact .cat p (.pre (.blank bE q))

theorem W.decInit (w : W h0 h (R :: L :: E :: P :: Fs)) (gR : Good R) (gL : Good L) (bE : Blank E) (tP : Tail hd P) (id : Nat) :
    ∃ h' N, h.afterDec ω id E.out L.out (some R.out) P.out = some (h', N.out) ∧ W h0 h' (N :: Fs) ∧ Tail hd N ∧
      (∀ x ns, x.q = true → Then (P.run .seq) (Then (L.run .seq) (Thru R)) ns → N.run (.ex x) ns) ∧
      (∀ ns, (P.run .pre ns ∨ Then (P.run .seq) (fun ns => L.run .pre ns ∨ Then (L.run .seq) (R.run .pre) ns) ns) → N.run .pre ns) := by
  obtain ⟨h1, S1, e1, n1, w⟩ := w.rev3.link fair bE.one gL.mem .seq {}
  obtain ⟨X, eX, bX, mX, w⟩ := w.exit id
  obtain ⟨h2, S2, e2, n2, w⟩ := w.rot3.rot3.link fair gL.one gR.mem .seq {}
  obtain ⟨h3, S3, e3, n3, w⟩ := w.both fair bX.mem {} rfl full_none false (.inr (.inl gR.one))
  obtain ⟨S3, w⟩ := w.grp (A := E.out) bE.mem (n3 _ bE.mem)
  obtain ⟨h4, S4, e4, n4, w⟩ := w.swap.link fair tP.one (B := (h3.grp E.out X.out).2) (by simp) .seq {}
  obtain ⟨S5, w⟩ := w.grp (A := P.out) tP.mem (n4 _ tP.mem)
  dsimp only at e1 e2 e3 e4 eX
  refine ⟨_, _, ?_, w, ⟨⟨bX.one, by simp⟩, mX.1, tP.head⟩, ?_, ?_⟩
  · simp only [Heap.afterDec, e1, ← eX, e2, e3, e4, Option.bind_some, Option.map_some]
  · rintro x ns xq ⟨n1, _, rfl, p, n2, n3, rfl, q, y, r⟩
    exact .cat p (.fin bX xq ⟨y, .cat (.blank bE q) r⟩)
  · rintro ns (p | ⟨n1, _, rfl, p, q | ⟨n2, n3, rfl, q, r⟩⟩)
    · exact .pre p
    · exact .cat p (.pre (.pre (.blank bE q)))
    · exact .cat p (.pre (.cat (.blank bE q) r))

theorem W.block (w : W h0 h (P :: Fs)) (tP : Tail hd P) (id : Nat) :
    ∃ h' N, h.afterBlock ω id P.out = some (h', N.out) ∧ W h0 h' (N :: Fs) ∧ Tail hd N ∧
      (∀ x ns, x.q = true → P.run .seq ns → N.run (.ex x) ns) ∧ (∀ ns, P.run .pre ns → N.run .pre ns) := by
  obtain ⟨X, eX, bX, mX, w⟩ := w.exit id
  obtain ⟨h1, S1, e1, n1, w⟩ := w.swap.link fair tP.one bX.mem .seq {}
  obtain ⟨S2, w⟩ := w.grp (A := P.out) tP.mem (n1 _ tP.mem)
  refine ⟨_, _, ?_, w, ⟨⟨bX.one, by simp⟩, mX.1, tP.head⟩, ?_, ?_⟩
  · simp only [Heap.afterBlock, ← eX, e1, Option.map_some]
  · exact fun x ns xq q => .fin bX xq q
  · exact fun ns q => .pre q

theorem W.prog (w : W h0 h (P :: Fs)) (tP : Tail hd P) (id : Nat) :
    ∃ h' N, h.afterProg ω id P.out = some (h', N.out) ∧ W h0 h' (N :: Fs) ∧ Tail hd N ∧ N.mark (.exit id) ∧
      (∀ x ns, x.q = true → P.run .seq ns → N.run (.ex x) ns) ∧ (∀ ns, P.run .pre ns → N.run .pre ns) := by
  obtain ⟨X, eX, bX, mX, w⟩ := w.exit id
  obtain ⟨h1, S1, e1, n1, w⟩ := w.swap.both fair bX.mem {} rfl full_none false (.inr (.inl tP.one))
  obtain ⟨S2, w⟩ := w.grp (A := P.out) tP.mem (n1 _ tP.mem)
  refine ⟨_, _, ?_, w, ⟨⟨bX.one, by simp⟩, mX.1, tP.head⟩, mX.2, ?_, ?_⟩
  · simp only [Heap.afterProg, ← eX, e1, Option.map_some]
  · exact fun x ns xq q => .fin bX xq ⟨_, q⟩
  · exact fun ns q => .pre q

theorem W.ifThen {T K : Fr} (w : W h0 h (K :: T :: P :: Fs)) (gK : Good K) (gT : Good T) (tP : Tail hd P) (id : Nat) :
    ∃ h' N, h.afterIf ω id P.out T.out K.out none = some (h', N.out) ∧ W h0 h' (N :: Fs) ∧ Tail hd N ∧
      (∀ x ns, x.q = true → Then (P.run .seq) (fun ns => Then (T.run (.ex { q := true, t := true })) (Thru K) ns ∨ T.run (.ex { q := true, f := true }) ns) ns → N.run (.ex x) ns) ∧
      (∀ ns, (P.run .pre ns ∨ Then (P.run .seq) (fun ns => T.run .pre ns ∨ Then (T.run (.ex { q := true, t := true })) (K.run .pre) ns) ns) → N.run .pre ns) := by
  obtain ⟨h1, S1, e1, n1, w⟩ := w.rev3.link fair tP.one gT.mem .none {}
  obtain ⟨S2, w⟩ := w.grp (A := P.out) tP.mem (n1 _ tP.mem)
  obtain ⟨h2, S2, e2, w⟩ := w.jmpOut fair gT.one { f := true }
  obtain ⟨h3, S3, e3, w⟩ := w.half fair rfl gK.one rfl gK.mem (A := P.out) (by simp [tP.mem]) (fun h => h.grpHalf P.out (h1.grp P.out T.out).2 K.out)
    (fun h S c r sA bA sF bF sG bG => (grpHalf_gp c r sF bF sG bG).2)
  obtain ⟨X, eX, bX, mX, w⟩ := w.exit id
  obtain ⟨h4, S4, e4, n4, w⟩ := w.swap.both fair bX.mem { t := true, f := true } rfl full_both false (.inr (.inl rfl))
  obtain ⟨S5, w⟩ := w.grp (A := (h3.grpHalf P.out (h1.grp P.out T.out).2 K.out).2) (by simp) (n4 _ (by simp))
  dsimp only at e1 e2 e3 e4 eX
  rw [Heap.linkThen] at e3
  obtain ⟨h5, e5, e3⟩ := Option.bind_eq_some_iff.mp e3
  refine ⟨_, _, ?_, w, ⟨⟨bX.one, by simp⟩, mX.1, tP.head⟩, ?_, ?_⟩
  · simp only [Heap.afterIf, e1, e2, e5, e3, Option.bind_some]
    simp only [Heap.grpHalf] at eX e4 ⊢
    simp only [← eX, Option.isSome_none, e4, Option.map_some]
  · rintro x ns xq ⟨n1, _, rfl, p, ⟨n2, n3, rfl, q, y, r⟩ | q⟩
    · refine .fin bX xq ⟨y, ?_⟩
      rw [← List.append_assoc]
      exact .inl (.cat (.inl (.cat p q)) r)
    · exact .fin bX xq ⟨{ f := true }, .inr ⟨rfl, .inr ⟨false, rfl, rfl, .cat p q⟩⟩⟩
  · rintro ns (p | ⟨n1, _, rfl, p, q | ⟨n2, n3, rfl, q, r⟩⟩)
    · exact .pre (.pre (.pre p))
    · exact .pre (.pre (.cat p q))
    · rw [← List.append_assoc]
      exact .pre (.cat (.inl (.cat p q)) r)

/-- The group made of an `if` (ctrlflow.go 867-879). -/
def Heap.grpIf (h : Heap) (enter test cons alt : Nat) : Heap × Nat :=
  let vn := h.grpHalf enter test cons
  (vn.1.addOutlets vn.2 (vn.1.xOut alt), vn.2)

omit fair in
theorem grpHalf_outs (h : Heap) (A X Y : Nat) : ((h.grpHalf A X Y).1.blk (h.grpHalf A X Y).2).outs = h.next := by
  show Block.outs (upd h.blk h.next _ h.next) = _
  rw [upd_self]

omit fair in
theorem grpIf_gp {h : Heap} {S : Nat → Prop} (c : Clean h) (r : Reg h S) {A X Y Z : Nat} (sX : S X) (bX : h.IsB X) (sY : S Y) (bY : h.IsB Y) (sZ : S Z) (bZ : h.IsB Z) :
    Gp h (h.grpIf A X Y Z).1 S A (h.grpIf A X Y Z).2 (fun d => (d ∈ h.xJmp X ∨ d ∈ h.xOut Y) ∨ d ∈ h.xOut Z) := by
  obtain ⟨ev, g0⟩ := grpHalf_gp (A := A) c r sX bX sY bY
  have nv : Z ≠ h.next := Nat.ne_of_lt (r.lt Z sZ)
  have eq : (h.grpHalf A X Y).1.xOut Z = h.xOut Z := by
    have := g0.O c r sZ bZ nv
    simp only [Heap.O] at this
    rw [Heap.xOut, this, g0.edge, Heap.xOut]
  have g := g0.add (grpHalf_outs h A X Y) ((h.grpHalf A X Y).1.xOut Z)
  rw [eq] at g
  rw [Heap.grpIf, eq]
  exact g

theorem W.ifElse {T K A : Fr} (w : W h0 h (A :: K :: T :: P :: Fs)) (gA : Good A) (gK : Good K) (gT : Good T) (tP : Tail hd P) (id : Nat) :
    ∃ h' N, h.afterIf ω id P.out T.out K.out (some A.out) = some (h', N.out) ∧ W h0 h' (N :: Fs) ∧ Tail hd N ∧
      (∀ x ns, x.q = true → Then (P.run .seq) (fun ns => Then (T.run (.ex { q := true, t := true })) (Thru K) ns ∨ Then (T.run (.ex { q := true, f := true })) (Thru A) ns) ns →
        N.run (.ex x) ns) ∧
      (∀ ns, (P.run .pre ns ∨ Then (P.run .seq) (fun ns => T.run .pre ns ∨ Then (T.run (.ex { q := true, t := true })) (K.run .pre) ns ∨
        Then (T.run (.ex { q := true, f := true })) (A.run .pre) ns) ns) → N.run .pre ns) := by
  obtain ⟨h1, S1, e1, n1, w⟩ := w.rev4.link fair tP.one gT.mem .none {}
  obtain ⟨S2, w⟩ := w.grp (A := P.out) tP.mem (n1 _ tP.mem)
  obtain ⟨h2, S2, e2, w⟩ := w.jmpOut fair gT.one { f := true }
  obtain ⟨h3, h6, S3, e3, e6, w⟩ := w.fork fair rfl rfl gK.mem gA.mem (A := P.out) (by simp [tP.mem]) (fun h => h.grpIf P.out (h1.grp P.out T.out).2 K.out A.out)
    (fun h S c r sA bA sF bF sG bG sH bH _ _ => ⟨_, grpIf_gp c r sF bF sG bG sH bH, fun d k => .inl (.inr k), fun d k => .inr k, by
      rintro d ((k | k) | k)
      · exact ⟨_, sF, bF, (mem_xJmp.mp k).1⟩
      · exact ⟨_, sG, bG, (mem_xOut.mp k).1⟩
      · exact ⟨_, sH, bH, (mem_xOut.mp k).1⟩⟩)
  obtain ⟨X, eX, bX, mX, w⟩ := w.exit id
  obtain ⟨h4, S4, e4, n4, w⟩ := w.swap.both fair bX.mem { t := true, f := true } rfl full_both true (.inl rfl)
  obtain ⟨S5, w⟩ := w.grp (A := (h6.grpIf P.out (h1.grp P.out T.out).2 K.out A.out).2) (by simp) (n4 _ (by simp))
  dsimp only at e1 e2 e3 e4 e6 eX
  rw [Heap.linkThen] at e3
  obtain ⟨h5, e5, e3⟩ := Option.bind_eq_some_iff.mp e3
  refine ⟨_, _, ?_, w, ⟨⟨bX.one, by simp⟩, mX.1, tP.head⟩, ?_, ?_⟩
  · simp only [Heap.afterIf, e1, e2, e5, e3, e6, Option.bind_some]
    simp only [Heap.grpIf, Heap.grpHalf] at eX e4 ⊢
    simp only [← eX, Option.isSome_some, e4, Option.map_some]
  · rintro x ns xq ⟨n1, _, rfl, p, ⟨n2, n3, rfl, q, y, r⟩ | ⟨n2, n3, rfl, q, y, r⟩⟩
    · refine .fin bX xq ⟨y, ?_⟩
      rw [← List.append_assoc]
      exact .inl (.cat (.inl (.cat p q)) r)
    · refine .fin bX xq ⟨y, ?_⟩
      rw [← List.append_assoc]
      exact .inr (.cat (.inr ⟨false, rfl, rfl, .cat p q⟩) r)
  · rintro ns (p | ⟨n1, _, rfl, p, q | ⟨n2, n3, rfl, q, r⟩ | ⟨n2, n3, rfl, q, r⟩⟩)
    · exact .pre (.inl (.pre (.pre p)))
    · exact .pre (.inl (.pre (.cat p q)))
    · rw [← List.append_assoc]
      exact .pre (.inl (.cat (.inl (.cat p q)) r))
    · rw [← List.append_assoc]
      exact .pre (.inr (.cat (.inr ⟨false, rfl, rfl, .cat p q⟩) r))

theorem W.whileStmt {T B : Fr} (w : W h0 h (B :: T :: P :: Fs)) (gB : Good B) (gT : Good T) (tP : Tail hd P) (id : Nat) :
    ∃ h' N, h.afterWhile ω id P.out T.out B.out = some (h', N.out) ∧ W h0 h' (N :: Fs) ∧ Tail hd N ∧
      ∃ J : Fr, J.run = Jumped T { f := true } ∧
      (∀ x ns, x.q = true → Then (P.run .seq) (LoopRun J B (.ex { f := true })) ns → N.run (.ex x) ns) ∧
      (∀ ns, (P.run .pre ns ∨ Then (P.run .seq) (LoopRun J B .pre) ns) → N.run .pre ns) := by
  obtain ⟨h1, S1, e1, w⟩ := w.swap.jmpOut fair gT.one { f := true }
  obtain ⟨h2, S2, e2, w⟩ := w.rot3.while fair tP.one rfl gB.one rfl rfl tP.mem gT.mem gB.mem
  obtain ⟨X, eX, bX, mX, w⟩ := w.exit id
  obtain ⟨h4, S4, e4, n4, w⟩ := w.swap.both fair bX.mem {} rfl full_none false (.inr (.inr ⟨false, rfl⟩))
  obtain ⟨S5, w⟩ := w.grp (A := (h2.grpHalf P.out T.out B.out).2) (by simp) (n4 _ (by simp))
  dsimp only at e1 e2 e4 eX
  refine ⟨_, _, ?_, w, ⟨⟨bX.one, by simp⟩, mX.1, tP.head⟩,
    { S := S1, ins := T.ins, out := T.out, blks := T.blks, multi := true, jump := some false, mark := T.mark, head := T.head, run := Jumped T { f := true } }, rfl, ?_, ?_⟩
  · simp only [Heap.linkWhile, Heap.linkThen] at e2
    obtain ⟨a1, q1, e2⟩ := Option.bind_eq_some_iff.mp e2
    obtain ⟨a2, q2, e2⟩ := Option.bind_eq_some_iff.mp e2
    obtain ⟨a4, q4, e2⟩ := Option.bind_eq_some_iff.mp e2
    obtain ⟨a3, q3, q4⟩ := Option.bind_eq_some_iff.mp q4
    obtain ⟨a5, q5, e2⟩ := Option.bind_eq_some_iff.mp e2
    obtain ⟨a6, q6, e2⟩ := Option.bind_eq_some_iff.mp e2
    simp only [Heap.afterWhile, e1, q1, q2, q3, q4, q5, q6, e2, Option.bind_some]
    simp only [Heap.grpHalf] at eX e4 ⊢
    simp only [← eX, e4, Option.map_some]
  · rintro x ns xq ⟨n1, n2, rfl, p, q⟩
    exact .fin bX xq ⟨_, .inl ⟨n1, n2, rfl, p, q⟩⟩
  · rintro ns (p | ⟨n1, n2, rfl, p, q⟩)
    · exact .pre (.inr ⟨rfl, p⟩)
    · exact .pre (.inl ⟨n1, n2, rfl, p, q⟩)

theorem W.forStmt {T B : Fr} {I U : Option Fr} (w : W h0 h (T :: P :: B :: I.toList ++ U.toList ++ Fs)) (gB : Good B) (gT : Good T) (gI : ∀ F ∈ I, Good F)
    (gU : ∀ F ∈ U, Good F) (tP : Tail hd P) (id : Nat) :
    ∃ h' N, h.afterFor ω id P.out (I.map Fr.out) T.out (U.map Fr.out) B.out = some (h', N.out) ∧ W h0 h' (N :: Fs) ∧ Tail hd N ∧
      ∃ J : Fr, J.run = Jumped T { f := true } ∧
      (∀ x ns, x.q = true → ForRun P J B I U (.ex { f := true }) ns → N.run (.ex x) ns) ∧
      (∀ ns, ForRun P J B I U .pre ns → N.run .pre ns) := by
  obtain ⟨h1, S1, e1, w⟩ := w.jmpOut fair gT.one { f := true }
  obtain ⟨h2, h3, h4, S2, e2, e3, e4, w⟩ := w.swap.for fair tP.one rfl gB.one rfl tP.mem gT.mem gB.mem (fun F m => ⟨(gI F m).one, (gI F m).mem⟩)
    (fun F m => ⟨(gU F m).one, (gU F m).mem⟩)
  obtain ⟨X, eX, bX, mX, w⟩ := w.exit id
  obtain ⟨h5, S5, e5, n5, w⟩ := w.swap.both fair bX.mem {} rfl full_none false (.inr (.inr ⟨false, rfl⟩))
  obtain ⟨S6, w⟩ := w.grp (A := (h4.grpHalf P.out T.out B.out).2) (by simp) (n5 _ (by simp))
  dsimp only at e1 e2 e3 e4 e5 eX
  refine ⟨_, _, ?_, w, ⟨⟨bX.one, by simp⟩, mX.1, tP.head⟩,
    { S := S1, ins := T.ins, out := T.out, blks := T.blks, multi := true, jump := some false, mark := T.mark, head := T.head, run := Jumped T { f := true } }, rfl, ?_, ?_⟩
  · simp only [Heap.afterFor, e1, e2, e3, e4, ← eX, e5, Option.bind_some, Option.map_some]
  · exact fun x ns xq q => .fin bX xq ⟨_, q⟩
  · exact fun ns q => .pre q

theorem W.doStmt {T B : Fr} (w : W h0 h (T :: B :: P :: Fs)) (gB : Good B) (gT : Good T) (tP : Tail hd P) (id : Nat) :
    ∃ h' N, h.afterDo ω id P.out T.out B.out = some (h', N.out) ∧ W h0 h' (N :: Fs) ∧ Tail hd N ∧
      ∃ J : Fr, J.run = Jumped T { f := true } ∧
      (∀ x ns, x.q = true → DoRun P J B (.ex { t := true, f := true }) ns → N.run (.ex x) ns) ∧
      (∀ ns, DoRun P J B .pre ns → N.run .pre ns) := by
  obtain ⟨h1, S1, e1, w⟩ := w.jmpOut fair gT.one { f := true }
  obtain ⟨h2, S2, e2, w⟩ := w.rot3.doWhile fair tP.one rfl gB.one rfl tP.mem gT.mem gB.mem
  obtain ⟨X, eX, bX, mX, w⟩ := w.exit id
  obtain ⟨h3, h4, S4, e3, e4, n4, w⟩ := w.swap.linkVia fair rfl (Y := (h2.grpHalf P.out T.out B.out).2) (by simp) bX.mem
  obtain ⟨S6, w⟩ := w.grp (A := (h2.grpHalf P.out T.out B.out).2) (by simp) (n4 _ (by simp))
  dsimp only at e1 e2 e3 e4 eX
  refine ⟨_, _, ?_, w, ⟨⟨bX.one, by simp⟩, mX.1, tP.head⟩,
    { S := S1, ins := T.ins, out := T.out, blks := T.blks, multi := true, jump := some false, mark := T.mark, head := T.head, run := Jumped T { f := true } }, rfl, ?_, ?_⟩
  · simp only [Heap.afterDo, e1, e2, ← eX, e3, e4, Option.bind_some, Option.map_some]
  · exact fun x ns xq q => .fin bX xq q
  · exact fun ns q => .pre q

end

end Mole.Cfg
