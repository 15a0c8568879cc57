import Verif.Graph.CfgHandle

/-! What the handlers do to the pieces of a graph under construction: conditions, lists and calls. -/

namespace Mole.Cfg

theorem W.rev4 {h0 h : Heap} {F G H J : Fr} {Fs : List Fr} (w : W h0 h (F :: G :: H :: J :: Fs)) : W h0 h (J :: H :: G :: F :: Fs) := w.rot4.perm (.cons _ (((List.Perm.swap _ _ _).trans ((List.Perm.swap _ _ _).cons _)).trans (.swap _ _ _)))

/-- The group made of the first of three pieces and the ends of the other two (ctrlflow.go 347-348). -/
def Heap.grpCond (h : Heap) (prev cons alt : Nat) : Heap × Nat :=
  let vn := h.grp prev cons
  (vn.1.addOutlets vn.2 (vn.1.xOut alt), vn.2)

theorem grpCond_gp {h : Heap} {S : Nat → Prop} (c : Clean h) (r : Reg h S) {A X Y : Nat} (sA : S A) (bA : h.IsB A) (sX : S X) (bX : h.IsB X) (sY : S Y) (bY : h.IsB Y)
    (nX : A ≠ X) (nY : A ≠ Y) :
    Gp h (h.grpCond A X Y).1 S A (h.grpCond A X Y).2 (fun d => (d ∈ h.xOut X ∨ d ∈ h.xJmp A) ∨ d ∈ h.xOut Y) := by
  have g0 := grp_gp c r sA bA sX bX nX
  have nv : Y ≠ (h.grp A X).2 := by
    rcases g0.place with ⟨k, _⟩ | k
    · rw [k]; exact nY.symm
    · rw [k]; exact Nat.ne_of_lt (r.lt Y sY)
  have eq : (h.grp A X).1.xOut Y = h.xOut Y := by
    have := g0.O c r sY bY nv
    simp only [Heap.O] at this
    simp only [Heap.xOut, this, g0.edge]
  have g := g0.add (grp_outs h A X) ((h.grp A X).1.xOut Y)
  rw [eq] at g
  rw [Heap.grpCond, eq]
  exact g

/-- `grpBlock`, with the hanging jumps of two other blocks added (ctrlflow.go 529-531). -/
theorem W.grpAdd2 {h0 h : Heap} {F : Fr} {Fs : List Fr} (w : W h0 h (F :: Fs)) {A B D : Nat} (hA : A ∈ F.ins) (ne : A ≠ F.out) (hB : B ∈ F.blks) (nB : A ≠ B)
    (hD : D ∈ F.blks) (nD : A ≠ D) :
    ∃ S', W h0 (((h.grp A F.out).1.addOutlets (h.grp A F.out).2 ((h.grp A F.out).1.xJmp B)).addOutlets (h.grp A F.out).2
        (((h.grp A F.out).1.addOutlets (h.grp A F.out).2 ((h.grp A F.out).1.xJmp B)).xJmp D))
      ({ S := S', ins := (h.grp A F.out).2 :: F.ins, out := (h.grp A F.out).2, blks := F.ins ++ F.blks, one := F.one, tidy := F.tidy, multi := F.multi, mark := F.mark, head := F.head,
         run := F.run } :: Fs) := by
  obtain ⟨a, s, f⟩ := w.frag F (by simp)
  have iA := f.ent.ins A hA
  have g0 := grp_gp w.clean f.ent.reg iA.sB iA.bB f.sX f.bX ne
  have nv : ∀ B ∈ F.blks, A ≠ B → B ≠ (h.grp A F.out).2 := by
    intro B hB nB
    rcases g0.place with ⟨k, _⟩ | k
    · rw [k]; exact nB.symm
    · rw [k]; exact Nat.ne_of_lt (f.ent.reg.lt B (f.blks B hB).1)
  have eq : (h.grp A F.out).1.xJmp B = h.xJmp B := by
    have := g0.O w.clean f.ent.reg (f.blks B hB).1 (f.blks B hB).2 (nv B hB nB)
    simp only [Heap.O] at this
    simp only [Heap.xJmp, this, g0.edge]
  have g1 := g0.add (grp_outs h A F.out) ((h.grp A F.out).1.xJmp B)
  have eq2 : ((h.grp A F.out).1.addOutlets (h.grp A F.out).2 ((h.grp A F.out).1.xJmp B)).xJmp D = h.xJmp D := by
    have := g1.O w.clean f.ent.reg (f.blks D hD).1 (f.blks D hD).2 (nv D hD nD)
    simp only [Heap.O] at this
    rw [Heap.xJmp, this, g1.edge, Heap.xJmp]
  have g := g1.add (grp_outs h A F.out) (((h.grp A F.out).1.addOutlets (h.grp A F.out).2 ((h.grp A F.out).1.xJmp B)).xJmp D)
  rw [eq2] at g ⊢
  rw [eq] at g ⊢
  have hL : ∀ d, (((d ∈ h.xOut F.out ∨ d ∈ h.xJmp A) ∨ d ∈ h.xJmp B) ∨ d ∈ h.xJmp D) → ∃ b, F.S b ∧ h.IsB b ∧ d ∈ h.O b := by
    rintro d (((k | k) | k) | k)
    · exact ⟨F.out, f.sX, f.bX, (mem_xOut.mp k).1⟩
    · exact ⟨A, iA.sB, iA.bB, (mem_xJmp.mp k).1⟩
    · exact ⟨B, (f.blks B hB).1, (f.blks B hB).2, (mem_xJmp.mp k).1⟩
    · exact ⟨D, (f.blks D hD).1, (f.blks D hD).2, (mem_xJmp.mp k).1⟩
  refine ⟨_, W.step (Os := [F]) w (g.clean w.clean f.ent.reg iA.sB) (by rw [g.next]; omega)
    (g.frame w.clean f.ent.reg iA.sB (fun i k => k.1) (fun i k => k.2 F (by simp)))
    (g.frag w.clean f hA hL (fun o => .inl (.inl (.inl (mem_xOut.mpr ⟨(f.last o).out.mem, (f.last o).out.hang⟩)))) ?_ (run := F.run) ?_) ?_⟩
  · rintro o d (((k | k) | k) | k) q
    · exact (f.last o).out.uniq d (mem_xOut.mp k).1 q
    · exact absurd q (mem_xJmp.mp k).2.1
    · exact absurd q (mem_xJmp.mp k).2.1
    · exact absurd q (mem_xJmp.mp k).2.1
  · intro k ns q
    exact g.reach w.clean f.ent.reg f.ent.se f.ent.ne (fun _ _ d md k2 _ => .inl (.inl (.inl (mem_xOut.mpr ⟨md, k2⟩)))) (f.run k ns q)
  · rintro i (k | k)
    · exact .inl ⟨F, by simp, k⟩
    · exact .inr k.1

/-- Blocks that are linked one after the other, from the last back: their walks. -/
def accE : List Fr → (List Nat → Prop) → List Nat → Prop
  | [], ev => ev
  | F :: Ls, ev => accE Ls (Then (Thru F) ev)

def accP : List Fr → (List Nat → Prop) → List Nat → Prop
  | [], pa => pa
  | F :: Ls, pa => accP Ls (fun ns => F.run .pre ns ∨ Then (Thru F) pa ns)

section

variable {ω : Order} (fair : ω.Fair) {h0 h : Heap} {E L R : Fr} {Fs : List Fr}

include fair

theorem W.cond {T K A : Fr} (w : W h0 h (A :: K :: T :: E :: Fs)) (gA : Good A) (gK : Good K) (gT : Good T) (bE : Blank E) (id : Nat) :
    ∃ h' N, h.afterCond ω id E.out T.out K.out A.out = some (h', N.out) ∧ W h0 h' (N :: Fs) ∧ Good N ∧
      (∀ x ns, x.q = true → (Then (T.run (.ex { q := true, t := true })) (Thru K) ns ∨ Then (T.run (.ex { q := true, f := true })) (Thru A) ns) → N.run (.ex x) ns) ∧
      (∀ ns, (T.run .pre ns ∨ Then (T.run (.ex { q := true, t := true })) (K.run .pre) ns ∨ Then (T.run (.ex { q := true, f := true })) (A.run .pre) ns) → N.run .pre ns) := by
  obtain ⟨X, eX, bX, _, w⟩ := w.exit id
  obtain ⟨h1, S1, e1, w⟩ := w.rot4.jmpOut fair gT.one { f := true }
  obtain ⟨h2, S2, e2, n2, w⟩ := w.rot5.link fair bE.one gT.mem .seq {}
  obtain ⟨S3, w⟩ := w.grp (A := E.out) bE.mem (n2 _ bE.mem)
  have w := w.perm (.cons _ (((List.Perm.swap _ _ _).trans ((List.Perm.swap _ _ _).cons _)).trans (.swap _ _ _)))
  obtain ⟨h4, h5, S5, e4, e5, w⟩ := w.fork fair rfl rfl gK.mem gA.mem (A := (h2.grp E.out T.out).2) (by simp) (fun h => h.grpCond (h2.grp E.out T.out).2 K.out A.out)
    (fun h S c r sA bA _ _ sG bG sH bH n1 n2 => ⟨_, grpCond_gp c r sA bA sG bG sH bH n1 n2, fun d k => .inl (.inl k), fun d k => .inr k, by
      rintro d ((k | k) | k)
      · exact ⟨_, sG, bG, (mem_xOut.mp k).1⟩
      · exact ⟨_, sA, bA, (mem_xJmp.mp k).1⟩
      · exact ⟨_, sH, bH, (mem_xOut.mp k).1⟩⟩)
  obtain ⟨h6, S6, e6, n6, w⟩ := w.both fair bX.mem {} rfl full_none true (.inl rfl)
  obtain ⟨S7, w⟩ := w.grp (A := (h5.grpCond (h2.grp E.out T.out).2 K.out A.out).2) (by simp) (n6 _ (by simp))
  dsimp only at e1 e2 e4 e5 e6
  rw [Heap.linkThen] at e4
  obtain ⟨h8, e8, e4⟩ := Option.bind_eq_some_iff.mp e4
  have jt : ∀ ns, T.run (.ex { q := true, t := true }) ns → Jumped T { f := true } (.ex { q := true, t := true }) ns := fun ns q => .inl q
  have jf : ∀ ns, T.run (.ex { q := true, f := true }) ns → Jumped T { f := true } (.ex { f := true }) ns := fun ns q => .inr ⟨false, rfl, rfl, q⟩
  refine ⟨_, _, ?_, w, ⟨bX.one, by simp⟩, ?_, ?_⟩
  · simp only [Heap.afterCond, ← eX, e1, e2, e8, e4, e5, Option.bind_some]
    simp only [Heap.grpCond] at e6 ⊢
    simp only [e6, Option.map_some]
  · rintro x ns xq (⟨n1, n2, rfl, p, y, q⟩ | ⟨n1, n2, rfl, p, y, q⟩)
    · exact .fin bX xq ⟨y, .inl (.cat (.blank bE (jt _ p)) q)⟩
    · exact .fin bX xq ⟨y, .inr (.cat (.blank bE (jf _ p)) q)⟩
  · rintro ns (p | ⟨n1, n2, rfl, p, q⟩ | ⟨n1, n2, rfl, p, q⟩)
    · exact .pre (.inl (.pre (.blank bE p)))
    · exact .pre (.inl (.cat (.blank bE (jt _ p)) q))
    · exact .pre (.inr (.cat (.blank bE (jf _ p)) q))

theorem W.pair (w : W h0 h (R :: L :: E :: Fs)) (gR : Good R) (gL : Good L) (bE : Blank E) (id : Nat) :
    ∃ h' N, h.afterPair ω id E.out L.out R.out = some (h', N.out) ∧ W h0 h' (N :: Fs) ∧ Good N ∧
      (∀ x ns, x.q = true → Then (L.run .seq) (Thru R) ns → N.run (.ex x) ns) ∧ (∀ ns, (L.run .pre ns ∨ Then (L.run .seq) (R.run .pre) ns) → N.run .pre ns) := by
  obtain ⟨X, eX, bX, _, w⟩ := w.exit id
  obtain ⟨h1, S1, e1, n1, w⟩ := w.rev4.link fair bE.one gL.mem .seq {}
  obtain ⟨h2, S2, e2, n2, w⟩ := w.link fair gL.one gR.mem .seq {}
  obtain ⟨h3, S3, e3, n3, w⟩ := w.both fair bX.mem {} rfl full_none false (.inr (.inl gR.one))
  obtain ⟨S4, w⟩ := w.grp (A := E.out) bE.mem (n3 _ bE.mem)
  dsimp only at e1 e2 e3
  refine ⟨_, _, ?_, w, ⟨bX.one, by simp⟩, ?_, ?_⟩
  · simp only [Heap.afterPair, ← eX, e1, e2, e3, Option.bind_some, Option.map_some]
  · rintro x ns xq ⟨n1, n2, rfl, p, y, q⟩
    exact .fin bX xq ⟨y, .cat (.blank bE p) q⟩
  · rintro ns (p | ⟨n1, n2, rfl, p, q⟩)
    · exact .pre (.pre (.blank bE p))
    · exact .pre (.cat (.blank bE p) q)

/-- popExprsAndLink: the loop. -/
theorem W.linkBack (Ls : List Fr) : ∀ {h : Heap} {G : Fr} {Fs : List Fr} (_ : W h0 h (G :: (Ls ++ Fs))) (_ : ∀ F ∈ Ls, Good F) {tt : Nat} (_ : tt ∈ G.ins) (_ : G.one = true)
    (ev pa : List Nat → Prop) (_ : ∀ ns, ev ns → Thru G ns) (_ : ∀ ns, pa ns → G.run .pre ns) (st : List Nat),
    ∃ h' G' hd, h.linkBack ω Ls.length (Ls.map Fr.out ++ st) tt = some (h', st, hd) ∧ W h0 h' (G' :: Fs) ∧ hd ∈ G'.ins ∧ G'.out = G.out ∧ G'.one = true ∧
      (∀ ns, accE Ls ev ns → Thru G' ns) ∧ (∀ ns, accP Ls pa ns → G'.run .pre ns) := by
  induction Ls with
  | nil => intro h G Fs w _ tt ht o ev pa he hp st; exact ⟨h, G, tt, rfl, w, ht, rfl, o, he, hp⟩
  | cons F Ls ih =>
    intro h G Fs w gd tt ht o ev pa he hp st
    have gF := gd F (by simp)
    obtain ⟨h1, S1, e1, _, w⟩ := W.both fair (W.swap w) ht {} rfl full_none false (.inr (.inl gF.one))
    obtain ⟨h', G', hd, e, w, m, oo, oo', r1, r2⟩ := ih w (fun F m => gd F (by simp [m])) (tt := F.out) gF.mem o (Then (Thru F) ev) (fun ns => F.run .pre ns ∨ Then (Thru F) pa ns)
      (by
        rintro ns ⟨n1, n2, rfl, p, q⟩
        obtain ⟨y, q⟩ := he _ q
        exact ⟨y, .cat p q⟩)
      (by
        rintro ns (p | ⟨n1, n2, rfl, p, q⟩)
        · exact .pre p
        · exact .cat p (hp _ q)) st
    refine ⟨h', G', hd, ?_, w, m, oo, oo', r1, r2⟩
    simp only [List.length_cons, List.map_cons, List.cons_append, Heap.linkBack, e1, Option.bind_some, e]

/-- popExprsAndLink. -/
theorem W.popLink {T : Fr} {Ls : List Fr} (w : W h0 h (T :: (Ls ++ Fs))) (gT : Good T) (gd : ∀ F ∈ Ls, Good F) (st : List Nat) :
    ∃ h' G hd, h.popLink ω (Ls.length + 1) (T.out :: (Ls.map Fr.out ++ st)) = some (h', st, some (hd, G.out)) ∧ W h0 h' (G :: Fs) ∧ hd ∈ G.ins ∧ G.one = true ∧
      (∀ ns, accE (T :: Ls) (· = []) ns → Thru G ns) ∧ (∀ ns, accP (T :: Ls) (fun _ => False) ns → G.run .pre ns) := by
  obtain ⟨h', G, hd, e, w, m, oo, o, r1, r2⟩ := W.linkBack fair Ls w gd gT.mem gT.one (Then (Thru T) (· = [])) (fun ns => T.run .pre ns ∨ Then (Thru T) (fun _ => False) ns)
    (by rintro ns ⟨n1, n2, rfl, p, rfl⟩; simpa using p) (by rintro ns (p | ⟨_, _, _, _, q⟩) <;> first | exact p | exact q.elim) st
  refine ⟨h', G, hd, ?_, w, m, o, r1, r2⟩
  simp only [Heap.popLink, e, Option.map_some, oo]

theorem W.list (w : W h0 h (L :: E :: Fs)) {hd : Nat} (hL : hd ∈ L.ins) (oL : L.one = true) (bE : Blank E) (id : Nat) :
    ∃ h' N, h.afterList ω id E.out (some (hd, L.out)) = some (h', N.out) ∧ W h0 h' (N :: Fs) ∧ Good N ∧
      (∀ x ns, x.q = true → Thru L ns → N.run (.ex x) ns) ∧ (∀ ns, L.run .pre ns → N.run .pre ns) := by
  obtain ⟨X, eX, bX, _, w⟩ := w.exit id
  obtain ⟨h1, S1, e1, n1, w⟩ := w.rev3.link fair bE.one hL .seq {}
  obtain ⟨h3, S3, e3, n3, w⟩ := w.both fair bX.mem {} rfl full_none false (.inr (.inl oL))
  obtain ⟨S4, w⟩ := w.grp (A := E.out) bE.mem (n3 _ bE.mem)
  dsimp only at e1 e3
  refine ⟨_, _, ?_, w, ⟨bX.one, by simp⟩, ?_, ?_⟩
  · simp only [Heap.afterList, ← eX, e1, e3, Option.bind_some, Option.map_some]
  · exact fun x ns xq ⟨y, q⟩ => .fin bX xq ⟨y, .blank bE q⟩
  · exact fun ns q => .pre (.blank bE q)

theorem W.list0 (w : W h0 h (E :: Fs)) (bE : Blank E) (id : Nat) :
    ∃ h' N, h.afterList ω id E.out none = some (h', N.out) ∧ W h0 h' (N :: Fs) ∧ Good N ∧ (∀ x : Ex, x.q = true → N.run (.ex x) []) ∧ N.run .pre [] := by
  obtain ⟨a, s, f⟩ := w.frag E (by simp)
  obtain ⟨X, eX, bX, _, w⟩ := w.exit id
  obtain ⟨h1, S1, e1, n1, w⟩ := w.swap.link fair bE.one bX.mem .seq {}
  obtain ⟨S4, w⟩ := w.grp (A := E.out) bE.mem (n1 _ bE.mem)
  refine ⟨_, _, ?_, w, ⟨bX.one, by simp⟩, ?_, ?_⟩
  · simp only [Heap.afterList, ← eX, e1, Option.map_some]
  · exact fun x xq => .fin bX xq (bE.run _ rfl)
  · exact .pre bE.nil

theorem W.call (w : W h0 h (R :: L :: E :: Fs)) {hd : Nat} (hR : hd ∈ R.ins) (oR : R.one = true) (gL : Good L) (bE : Blank E) (id : Nat) :
    ∃ h' N, h.afterCall ω id E.out L.out (some (hd, R.out)) = some (h', N.out) ∧ W h0 h' (N :: Fs) ∧ Good N ∧
      (∀ x ns, x.q = true → Then (L.run .seq) (Thru R) ns → N.run (.ex x) ns) ∧ (∀ ns, (L.run .pre ns ∨ Then (L.run .seq) (R.run .pre) ns) → N.run .pre ns) := by
  obtain ⟨X, eX, bX, _, w⟩ := w.exit id
  obtain ⟨h1, S1, e1, n1, w⟩ := w.rev4.link fair bE.one gL.mem .seq {}
  obtain ⟨h2, S2, e2, n2, w⟩ := w.link fair gL.one hR .seq {}
  obtain ⟨h3, S3, e3, n3, w⟩ := w.both fair bX.mem {} rfl full_none false (.inr (.inl oR))
  obtain ⟨S4, w⟩ := w.grpAdd (A := E.out) (B := L.out) bE.mem (n3 _ bE.mem) (by simp) (n1 _ bE.mem)
  dsimp only at e1 e2 e3
  refine ⟨_, _, ?_, w, ⟨bX.one, by simp⟩, ?_, ?_⟩
  · simp only [Heap.afterCall, ← eX, e1, e2, e3, Option.bind_some, Option.map_some]
  · rintro x ns xq ⟨n1, n2, rfl, p, y, q⟩
    exact .fin bX xq ⟨y, .cat (.blank bE p) q⟩
  · rintro ns (p | ⟨n1, n2, rfl, p, q⟩)
    · exact .pre (.pre (.blank bE p))
    · exact .pre (.cat (.blank bE p) q)

theorem W.call0 (w : W h0 h (L :: E :: Fs)) (gL : Good L) (bE : Blank E) (id : Nat) :
    ∃ h' N, h.afterCall ω id E.out L.out none = some (h', N.out) ∧ W h0 h' (N :: Fs) ∧ Good N ∧
      (∀ x ns, x.q = true → L.run .seq ns → N.run (.ex x) ns) ∧ (∀ ns, L.run .pre ns → N.run .pre ns) := by
  obtain ⟨X, eX, bX, _, w⟩ := w.exit id
  obtain ⟨h1, S1, e1, n1, w⟩ := w.rev3.link fair bE.one gL.mem .seq {}
  obtain ⟨h2, S2, e2, n2, w⟩ := w.link fair gL.one bX.mem .seq {}
  obtain ⟨S4, w⟩ := w.grpAdd (A := E.out) (B := L.out) bE.mem (n2 _ bE.mem) (by simp) (n1 _ bE.mem)
  dsimp only at e1 e2
  refine ⟨_, _, ?_, w, ⟨bX.one, by simp⟩, ?_, ?_⟩
  · simp only [Heap.afterCall, ← eX, e1, e2, Option.bind_some, Option.map_some]
  · exact fun x ns xq q => .fin bX xq (.blank bE q)
  · exact fun ns q => .pre (.blank bE q)

theorem W.newExpr (w : W h0 h (R :: L :: E :: Fs)) {hd : Nat} (hR : hd ∈ R.ins) (oR : R.one = true) (gL : Good L) (bE : Blank E) (id : Nat) :
    ∃ h' N, h.afterNew ω id E.out L.out (some (hd, R.out)) = some (h', N.out) ∧ W h0 h' (N :: Fs) ∧ Good N ∧
      (∀ x ns, x.q = true → Then (Thru L) (Thru R) ns → N.run (.ex x) ns) ∧ (∀ ns, (L.run .pre ns ∨ Then (Thru L) (R.run .pre) ns) → N.run .pre ns) := by
  obtain ⟨X, eX, bX, _, w⟩ := w.exit id
  obtain ⟨h1, S1, e1, n1, w⟩ := w.rev4.link fair bE.one gL.mem .seq {}
  obtain ⟨S5, w⟩ := w.grp (A := E.out) bE.mem (n1 _ bE.mem)
  obtain ⟨h2, S2, e2, n2, w⟩ := w.both fair hR {} rfl full_none false (.inr (.inl gL.one))
  obtain ⟨h3, S3, e3, n3, w⟩ := w.both fair bX.mem {} rfl full_none false (.inr (.inl oR))
  obtain ⟨S4, w⟩ := w.grp (A := E.out) (by simp [bE.mem]) (n3 _ (by simp [bE.mem]))
  dsimp only at e1 e2 e3
  refine ⟨_, _, ?_, w, ⟨bX.one, by simp⟩, ?_, ?_⟩
  · simp only [Heap.afterNew, ← eX, e1, e2, e3, Option.bind_some, Option.map_some]
  · rintro x ns xq ⟨n1, n2, rfl, ⟨z, p⟩, y, q⟩
    exact .fin bX xq ⟨y, .cat ⟨z, .blank bE p⟩ q⟩
  · rintro ns (p | ⟨n1, n2, rfl, ⟨z, p⟩, q⟩)
    · exact .pre (.pre (.blank bE p))
    · exact .pre (.cat ⟨z, .blank bE p⟩ q)

theorem W.newExpr0 (w : W h0 h (L :: E :: Fs)) (gL : Good L) (bE : Blank E) (id : Nat) :
    ∃ h' N, h.afterNew ω id E.out L.out none = some (h', N.out) ∧ W h0 h' (N :: Fs) ∧ Good N ∧
      (∀ x ns, x.q = true → Thru L ns → N.run (.ex x) ns) ∧ (∀ ns, L.run .pre ns → N.run .pre ns) := by
  obtain ⟨X, eX, bX, _, w⟩ := w.exit id
  obtain ⟨h1, S1, e1, n1, w⟩ := w.rev3.link fair bE.one gL.mem .seq {}
  obtain ⟨S5, w⟩ := w.grp (A := E.out) bE.mem (n1 _ bE.mem)
  obtain ⟨h2, S2, e2, n2, w⟩ := w.both fair bX.mem {} rfl full_none false (.inr (.inl gL.one))
  obtain ⟨S4, w⟩ := w.grp (A := E.out) (by simp [bE.mem]) (n2 _ (by simp [bE.mem]))
  dsimp only at e1 e2
  refine ⟨_, _, ?_, w, ⟨bX.one, by simp⟩, ?_, ?_⟩
  · simp only [Heap.afterNew, ← eX, e1, e2, Option.bind_some, Option.map_some]
  · exact fun x ns xq ⟨y, q⟩ => .fin bX xq ⟨y, .blank bE q⟩
  · exact fun ns q => .pre (.blank bE q)

theorem W.member (w : W h0 h (R :: L :: E :: Fs)) (gR : Good R) (gL : Good L) (bE : Blank E) (id : Nat) :
    ∃ h' N, h.afterMember ω id E.out L.out R.out = some (h', N.out) ∧ W h0 h' (N :: Fs) ∧ Good N ∧
      (∀ x ns, x.q = true → Then (Thru L) (Thru R) ns → N.run (.ex x) ns) ∧ (∀ ns, (L.run .pre ns ∨ Then (Thru L) (R.run .pre) ns) → N.run .pre ns) := by
  obtain ⟨X, eX, bX, _, w⟩ := w.exit id
  obtain ⟨h1, S1, e1, n1, w⟩ := w.rev4.link fair bE.one gL.mem .seq {}
  obtain ⟨h2, S2, e2, n2, w⟩ := w.both fair gR.mem { t := true, f := true } rfl full_both false (.inr (.inl gL.one))
  obtain ⟨h3, S3, e3, n3, w⟩ := w.both fair bX.mem { t := true, f := true } rfl full_both false (.inr (.inl gR.one))
  obtain ⟨S4, w⟩ := w.grpAdd2 (A := E.out) (B := L.out) (D := R.out) bE.mem (n3 _ bE.mem) (by simp) (n1 _ bE.mem) (by simp) (n2 _ bE.mem)
  dsimp only at e1 e2 e3
  refine ⟨_, _, ?_, w, ⟨bX.one, by simp⟩, ?_, ?_⟩
  · simp only [Heap.afterMember, ← eX, e1, e2, e3, Option.bind_some, Option.map_some]
  · rintro x ns xq ⟨n1, n2, rfl, ⟨z, p⟩, y, q⟩
    exact .fin bX xq ⟨y, .cat ⟨z, .blank bE p⟩ q⟩
  · rintro ns (p | ⟨n1, n2, rfl, ⟨z, p⟩, q⟩)
    · exact .pre (.pre (.blank bE p))
    · exact .pre (.cat ⟨z, .blank bE p⟩ q)

end

end Mole.Cfg
