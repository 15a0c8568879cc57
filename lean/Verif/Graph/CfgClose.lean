import Verif.Graph.CfgLoop

/-! Small steps used by the builder. -/

namespace Mole.Cfg

theorem Reach.mono {h : Heap} {a X : Nat} {x y : Ex} {ns : List Nat} (q : x.q = true → y.q = true) (b : ∀ b, x.jmp b = true → y.jmp b = true)
    (r : Reach h a X (.ex x) ns) : Reach h a X (.ex y) ns := by
  obtain ⟨d, md, k1, k2, p⟩ := r
  exact ⟨d, md, k1, k2.imp (fun k => ⟨q k.1, k.2⟩) (fun ⟨c, k⟩ => ⟨c, b c k.1, k.2⟩), p⟩

theorem W.swap {h0 h : Heap} {F G : Fr} {Fs : List Fr} (w : W h0 h (F :: G :: Fs)) : W h0 h (G :: F :: Fs) := w.perm (.swap _ _ _)

theorem W.rev3 {h0 h : Heap} {F G H : Fr} {Fs : List Fr} (w : W h0 h (F :: G :: H :: Fs)) : W h0 h (H :: G :: F :: Fs) :=
  w.perm ((((List.Perm.swap _ _ _).trans ((List.Perm.swap _ _ _).cons _))).trans (.swap _ _ _))

/-- Brings the third fragment to the front. -/
theorem W.rot3 {h0 h : Heap} {F G H : Fr} {Fs : List Fr} (w : W h0 h (F :: G :: H :: Fs)) : W h0 h (H :: F :: G :: Fs) :=
  w.perm ((((List.Perm.swap _ _ _).cons _)).trans (.swap _ _ _))

theorem W.rot4 {h0 h : Heap} {F G H J : Fr} {Fs : List Fr} (w : W h0 h (F :: G :: H :: J :: Fs)) : W h0 h (J :: F :: G :: H :: Fs) :=
  w.perm (((((List.Perm.swap _ _ _).cons _).trans (.swap _ _ _)).cons _).trans (.swap _ _ _))

theorem W.rot5 {h0 h : Heap} {F G H J K : Fr} {Fs : List Fr} (w : W h0 h (F :: G :: H :: J :: K :: Fs)) : W h0 h (K :: F :: G :: H :: J :: Fs) :=
  w.perm (((((((List.Perm.swap _ _ _).cons _).trans (.swap _ _ _)).cons _).trans (.swap _ _ _)).cons _).trans (.swap _ _ _))

/-- The block for the end of a logical operation: `link(vn, EK_SEQ, …, exit)`, then `grpBlock(vn, exit)`.  Jumps left hanging stay. -/
theorem W.close {ω : Order} (fair : ω.Fair) {h0 h : Heap} {F G : Fr} {Fs : List Fr} (w : W h0 h (F :: G :: Fs)) (one : F.one = true) (oG : G.one = true)
    (hF : F.out ∈ F.ins) {B : Nat} (hB : B ∈ G.ins) (gr : ∀ x : Ex, x.q = true → G.run (.ex x) []) :
    ∃ h' S', h.link ω F.out .seq {} .seq {} B {} = some h' ∧
      W h0 (h'.grp F.out G.out).1 ({ S := S', ins := (h'.grp F.out G.out).2 :: F.ins, out := (h'.grp F.out G.out).2, head := F.head, mark := G.mark, run := F.run } :: Fs) := by
  obtain ⟨a, s1, f⟩ := w.frag F (by simp)
  obtain ⟨e, s2, g⟩ := w.frag G (by simp)
  have dis : ∀ i, F.S i → ¬ G.S i := (List.pairwise_cons.mp w.dis).1 G (by simp)
  have o := (f.last one).out
  obtain ⟨h', eq, l⟩ := link_ls fair w.clean f.ent.reg g.ent.reg dis o (g.ent.ins B hB) g.ent.fr .seq {}
  have hQ : ∀ d, d = s1 → F.S d := by rintro d rfl; exact f.ent.reg.memO _ o.sX o.bX _ o.mem
  have fr := LS.frag (run := fun _ _ => False) w.clean l f g dis hQ (by simp)
  have en := fr.ent
  have sF : Ext (Un F.S G.S) h h' F.out := .inl (.inl f.sX)
  have bF : h'.IsB F.out := (l.isB _).mpr f.bX
  have ne : F.out ≠ G.out := fun k => dis _ f.sX (k ▸ g.sX)
  have gp := grp_gp l.clean en.reg sF bF fr.sX fr.bX ne
  have iA := en.ins _ hF
  have hL : ∀ d, (d ∈ h'.xOut G.out ∨ d ∈ h'.xJmp F.out) → ∃ b, Ext (Un F.S G.S) h h' b ∧ h'.IsB b ∧ d ∈ h'.O b := by
    rintro d (k | k)
    · exact ⟨G.out, fr.sX, fr.bX, (mem_xOut.mp k).1⟩
    · exact ⟨F.out, sF, bF, (mem_xJmp.mp k).1⟩
  have la := fr.last oG
  have last := gp.last (F := { S := Ext (Un F.S G.S) h h', ins := F.ins, out := G.out, blks := F.out :: G.out :: (F.ins ++ F.blks ++ G.blks), one := G.one, tidy := G.tidy, multi := G.multi, mark := G.mark, head := F.head, run := fun _ _ => False })
    (N := { S := Ext (Ext (Un F.S G.S) h h') h' (h'.grp F.out G.out).1, ins := (h'.grp F.out G.out).2 :: F.ins, out := (h'.grp F.out G.out).2, head := F.head, mark := G.mark, run := F.run }) l.clean en.reg sF la (.inl (mem_xOut.mpr ⟨la.out.mem, la.out.hang⟩)) (by
      rintro d (k | k) q
      · exact la.out.uniq d (mem_xOut.mp k).1 q
      · exact absurd q (mem_xJmp.mp k).2.1) rfl rfl (by simp) (by simp) (fun _ => id)
  refine ⟨h', _, eq, W.step (Os := [F, G]) w (gp.clean l.clean en.reg iA.sB) (by rw [gp.next]; exact Nat.le_succ_of_le l.next) ?_ (e := a) (s := s2)
    (N := { S := Ext (Ext (Un F.S G.S) h h') h' (h'.grp F.out G.out).1, ins := (h'.grp F.out G.out).2 :: F.ins, out := (h'.grp F.out G.out).2, head := F.head, mark := G.mark, run := F.run })
    ⟨gp.ent l.clean en.reg en hF hL, last.out.sX, last.out.bX, by simp, fun _ => last, by simp, ?_, f.head⟩ ?_⟩
  · refine (l.agree.mono ?_).trans (gp.frame l.clean en.reg iA.sB ?_ ?_)
    · exact fun i k => ⟨k.1, k.2 F (by simp), k.2 G (by simp)⟩
    · intro i k; exact Nat.lt_of_lt_of_le k.1 l.next
    · rintro i k ((q | q) | q)
      · exact k.2 F (by simp) q
      · exact k.2 G (by simp) q
      · exact absurd k.1 (Nat.not_lt.mpr q.1)
  · intro k ns q
    have r := f.run k ns q
    cases k with
    | pre => exact gp.pre l.clean en.reg en.se en.ne (l.tAp a ns f.ent.se f.ent.ne r)
    | ex x =>
      obtain ⟨d, md, k1, k2, p⟩ := r
      rcases k2 with ⟨xq, k2⟩ | ⟨b, k, k2, k3⟩
      · rw [o.uniq d md k2] at p
        have := l.reachV g.ent.reg dis hQ f.ent.se f.ent.ne g.sX g.bX p rfl (g.run _ _ (gr x xq))
        rw [List.append_nil] at this
        exact gp.reach l.clean en.reg en.se en.ne (fun _ _ d md k2 _ => .inl (mem_xOut.mpr ⟨md, k2⟩)) this
      · have u : Reach h a F.out (.ex { x with q := false }) ns := ⟨d, md, k1, .inr ⟨b, by cases b <;> exact k, k2, k3⟩, p⟩
        have jk : ∀ e : Edge, Ex.ok { x with q := false } e → e.kind = .jmp := by
          rintro e (⟨z, _⟩ | ⟨_, _, z, _⟩)
          · cases z
          · exact z
        have u := l.reachU f.ent.reg f.ent.se f.ent.ne f.sX f.bX (by
          rintro y ey d md ok rfl
          cases ey
          have := jk _ ok
          rw [o.kind] at this; cases this) u
        have u := gp.reach l.clean en.reg en.se en.ne (by
          rintro y ey d md k2 ok
          cases ey
          exact .inr (mem_xJmp.mpr ⟨md, by rw [jk _ ok]; simp, k2⟩)) u
        exact u.mono (by simp) (fun b => by cases b <;> exact id)
  · rintro i (((k | k) | k) | k)
    · exact .inl ⟨F, by simp, k⟩
    · exact .inl ⟨G, by simp, k⟩
    · exact .inr k.1
    · exact .inr (Nat.le_trans l.next k.1)

end Mole.Cfg
