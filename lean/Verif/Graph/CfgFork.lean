import Verif.Graph.CfgGrp

/-! Branches: conditional expressions and `if`. -/

namespace Mole.Cfg

/-- The links from a test to what is evaluated when it holds (ctrlflow.go 344-345, 859-860). -/
def Heap.linkThen (ω : Order) (h : Heap) (test cons : Nat) : Option Heap :=
  (h.link ω test .seq {} .seq {} cons {}).bind fun h => h.link ω test .jmp { t := true } .seq {} cons {}

section

variable {ω : Order} (fair : ω.Fair)

include fair

/-- What `linkThen` does. -/
theorem linkThen_em {h : Heap} {F G : Fr} {a s1 e s2 : Nat} (c : Clean h) (f : Frag h F a s1) (g : Frag h G e s2) (dis : ∀ i, F.S i → ¬ G.S i)
    (one : F.one = true) (mu : F.multi = true) {B : Nat} (hB : B ∈ G.ins) :
    ∃ h', h.linkThen ω F.out B = some h' ∧ EM h h' (Un F.S G.S) e (fun d => d = s1 ∨ Cho h F.out .jmp { t := true } d) ∧
      (∀ k ns, Seqd (F.run (.ex { q := true, t := true })) F G k ns → Reach h' a G.out k ns) ∧
      (∀ ns, F.run (.ex { f := true }) ns → Reach h' a F.out (.ex { f := true }) ns) := by
  have lF := f.last one
  have o := lF.out
  obtain ⟨x, ex, no⟩ := (lF.multi mu).no
  have r := f.ent.reg.union g.ent.reg dis
  obtain ⟨h1, h', e1, e2, m⟩ := link2r_em fair c f.ent.reg g.ent.reg dis o ex no (g.ent.ins B hB) { t := true } {} {} rfl
  have l := m.ls c r g.ent.se g.ent.ne
  have hQ : ∀ d, (d = s1 ∨ Cho h F.out .jmp { t := true } d) → F.S d := by
    rintro d (rfl | k)
    · exact f.ent.reg.memO _ o.sX o.bX _ o.mem
    · exact f.ent.reg.memO _ o.sX o.bX _ k.1
  refine ⟨h', by rw [Heap.linkThen, e1]; exact e2, m, ?_, ?_⟩
  · rintro k ns (⟨n1, n2, rfl, q, r⟩ | ⟨rfl, q⟩)
    · obtain ⟨d, md, k1, k2, p⟩ := f.run _ n1 q
      refine l.reachV g.ent.reg dis hQ f.ent.se f.ent.ne g.sX g.bX p ?_ (g.run k n2 r)
      rcases k2 with ⟨_, k2⟩ | ⟨b, k, k2, k3⟩
      · exact .inl (o.uniq d md k2)
      · cases b with
        | false => cases k
        | true => exact .inr ⟨md, ⟨k2, .inr (Tag.meets_on k3 rfl)⟩, k1⟩
    · exact l.tAp a ns f.ent.se f.ent.ne (f.run .pre ns q)
  · intro ns q
    refine l.reachU f.ent.reg f.ent.se f.ent.ne f.sX f.bX ?_ (f.run _ ns q)
    rintro y ey d md ok
    cases ey
    rcases ok with ⟨k, _⟩ | ⟨b, k, k2, on⟩
    · cases k
    · cases b with
      | true => cases k
      | false =>
        rintro (rfl | z)
        · rw [o.kind] at k2; cases k2
        · have := z.2.1.2
          simp only [Tag.on, Tag.bit, Bool.not_false, Bool.and_eq_true, Bool.not_eq_true'] at on
          simp [Tag.isNone, Tag.meets, on] at this

/-- The walks through a test followed by one of two things. -/
def ForkRun (F G H : Fr) (k : Kd) (ns : List Nat) : Prop :=
  Seqd (F.run (.ex { q := true, t := true })) F G k ns ∨ Seqd (F.run (.ex { f := true })) F H k ns

/-- The links from a test to two branches, and a group made of all that is left hanging. -/
theorem W.fork {h0 h : Heap} {F G H : Fr} {Fs : List Fr} (w : W h0 h (F :: G :: H :: Fs)) (one : F.one = true) (mu : F.multi = true) {B D A : Nat}
    (hB : B ∈ G.ins) (hD : D ∈ H.ins) (hA : A ∈ F.ins) (gr : Heap → Heap × Nat)
    (mk : ∀ h S, Clean h → Reg h S → S A → h.IsB A → S F.out → h.IsB F.out → S G.out → h.IsB G.out → S H.out → h.IsB H.out →
      F.out ≠ G.out → F.out ≠ H.out → ∃ L, Gp h (gr h).1 S A (gr h).2 L ∧ (∀ d ∈ h.xOut G.out, L d) ∧ (∀ d ∈ h.xOut H.out, L d) ∧
        ∀ d, L d → ∃ b, S b ∧ h.IsB b ∧ d ∈ h.O b) :
    ∃ h1 h2 S', h.linkThen ω F.out B = some h1 ∧ h1.link ω F.out .jmp { f := true } .seq {} D {} = some h2 ∧
      W h0 (gr h2).1 ({ S := S', ins := (gr h2).2 :: F.ins, out := (gr h2).2, one := false, head := F.head, run := ForkRun F G H } :: Fs) := by
  obtain ⟨a, s1, f⟩ := w.frag F (by simp)
  obtain ⟨e, s2, g⟩ := w.frag G (by simp)
  obtain ⟨e', s3, j⟩ := w.frag H (by simp)
  have dis : ∀ i, F.S i → ¬ G.S i := (List.pairwise_cons.mp w.dis).1 G (by simp)
  have disH : ∀ i, F.S i → ¬ H.S i := (List.pairwise_cons.mp w.dis).1 H (by simp)
  have disG : ∀ i, G.S i → ¬ H.S i := (List.pairwise_cons.mp (List.pairwise_cons.mp w.dis).2).1 H (by simp)
  obtain ⟨h1, e1, m1, r1, r2⟩ := linkThen_em fair w.clean f g dis one mu hB
  have r := f.ent.reg.union g.ent.reg dis
  have l1 := m1.ls w.clean r g.ent.se g.ent.ne
  have c1 := l1.clean
  have en1 : Ent h1 (Ext (Un F.S G.S) h h1) F.ins a := l1.ent w.clean g.ent.reg g.ent.se dis f.ent
  have aH : Agree h h1 H.S := l1.agree.mono (fun i k => ⟨j.ent.reg.lt i k, fun q => disH i q k, fun q => disG i q k⟩)
  have j1 := j.agree aH l1.next
  have dis1 : ∀ i, Ext (Un F.S G.S) h h1 i → ¬ H.S i := by
    rintro i ((q | q) | q) k
    · exact disH i q k
    · exact disG i q k
    · have := j.ent.reg.lt i k; omega
  have rH := en1.reg.union j1.ent.reg dis1
  have iD := j1.ent.ins D hD
  have iD' : In h1 (Un (Ext (Un F.S G.S) h h1) H.S) D e' := ⟨.inr iD.sB, iD.bB, .inr iD.se, iD.ne, iD.ins, iD.seq⟩
  have sF : Ext (Un F.S G.S) h h1 F.out := .inl (.inl f.sX)
  have bF : h1.IsB F.out := (m1.isB _).mpr f.bX
  have sG : Ext (Un F.S G.S) h h1 G.out := .inl (.inr g.sX)
  have bG : h1.IsB G.out := (m1.isB _).mpr g.bX
  obtain ⟨h2, e2, m2, _⟩ := link_em fair c1 rH (.inl sF) bF iD' (fk := .jmp) (ft := { f := true }) (tk := .seq) (tt := {}) rfl (fl := {}) rfl ⟨rfl, .inl (by simp)⟩
  have l2 := m2.ls c1 rH j1.ent.se j1.ent.ne
  have en2 := l2.ent c1 j1.ent.reg j1.ent.se dis1 en1
  have hQ2 : ∀ d, Cho h1 F.out .jmp { f := true } d → Ext (Un F.S G.S) h h1 d := fun d k => en1.reg.memO _ sF bF _ k.1
  -- walks
  have w1 : ∀ k ns, Seqd (F.run (.ex { q := true, t := true })) F G k ns → Reach h2 a G.out k ns := by
    intro k ns q
    refine l2.reachU en1.reg en1.se en1.ne sG bG ?_ (r1 k ns q)
    rintro x _ d md _ z
    have z := z.1
    rw [m1.O r (.inr g.ent.se) g.ent.ne (.inl f.sX) f.bX] at z
    rw [m1.O r (.inr g.ent.se) g.ent.ne (.inr g.sX) g.bX] at md
    exact dis d (f.ent.reg.memO _ f.sX f.bX d z) (g.ent.reg.memO _ g.sX g.bX d md)
  have w2 : ∀ k ns, Seqd (F.run (.ex { f := true })) F H k ns → Reach h2 a H.out k ns := by
    rintro k ns (⟨n1, n2, rfl, q, z⟩ | ⟨rfl, q⟩)
    · obtain ⟨d, md, k1, k2, p⟩ := r2 n1 q
      refine l2.reachV j1.ent.reg dis1 hQ2 en1.se en1.ne j1.sX j1.bX p ?_ (j1.run k n2 z)
      rcases k2 with ⟨k, _⟩ | ⟨b, k, k2, k3⟩
      · cases k
      · cases b with
        | true => cases k
        | false => exact ⟨md, ⟨k2, .inr (Tag.meets_on k3 rfl)⟩, k1⟩
    · exact l2.tAp a ns en1.se en1.ne (l1.tAp a ns f.ent.se f.ent.ne (f.run .pre ns q))
  -- the group
  have iA := en2.ins A hA
  obtain ⟨L, gp, lG, lH, hL⟩ := mk h2 _ l2.clean en2.reg iA.sB iA.bB (.inl (.inl sF)) ((m2.isB _).mpr bF) (.inl (.inl sG)) ((m2.isB _).mpr bG)
    (.inl (.inr j1.sX)) ((m2.isB _).mpr j1.bX) (fun q => dis _ f.sX (q ▸ g.sX)) (fun q => disH _ f.sX (q ▸ j.sX))
  refine ⟨h1, h2, _, e1, e2, W.step (Os := [F, G, H]) w (gp.clean l2.clean en2.reg iA.sB)
    (by rw [gp.next]; exact Nat.le_succ_of_le (Nat.le_trans l1.next l2.next)) ?_ (e := a) (s := 0)
    (N := { S := Ext _ h2 (gr h2).1, ins := (gr h2).2 :: F.ins, out := (gr h2).2, one := false, head := F.head, run := ForkRun F G H })
    ⟨gp.ent l2.clean en2.reg en2 hA hL, gp.ext l2.clean en2.reg iA.sB, gp.isBvn l2.clean en2.reg, by simp, by simp, by simp, ?_, f.head⟩ ?_⟩
  · refine ((l1.agree.mono ?_).trans (l2.agree.mono ?_)).trans (gp.frame l2.clean en2.reg iA.sB ?_ ?_)
    · exact fun i k => ⟨k.1, k.2 F (by simp), k.2 G (by simp)⟩
    · rintro i k
      refine ⟨Nat.lt_of_lt_of_le k.1 l1.next, ?_, k.2 H (by simp)⟩
      rintro ((q | q) | q)
      · exact k.2 F (by simp) q
      · exact k.2 G (by simp) q
      · omega
    · intro i k; have := k.1; have := l1.next; have := l2.next; omega
    · rintro i k ((((q | q) | q) | q) | q)
      · exact k.2 F (by simp) q
      · exact k.2 G (by simp) q
      · omega
      · exact k.2 H (by simp) q
      · have := l1.next; omega
  · rintro k ns (q | q)
    · exact gp.reach l2.clean en2.reg en2.se en2.ne (fun _ _ d md k2 _ => lG d (mem_xOut.mpr ⟨md, k2⟩)) (w1 k ns q)
    · exact gp.reach l2.clean en2.reg en2.se en2.ne (fun _ _ d md k2 _ => lH d (mem_xOut.mpr ⟨md, k2⟩)) (w2 k ns q)
  · have := l1.next
    have := l2.next
    rintro i (((((k | k) | k) | k) | k) | k)
    · exact .inl ⟨F, by simp, k⟩
    · exact .inl ⟨G, by simp, k⟩
    · exact .inr k.1
    · exact .inl ⟨H, by simp, k⟩
    · exact .inr (by omega)
    · exact .inr (by omega)

/-- The walks through a test followed by something if it holds. -/
def HalfRun (F G : Fr) : Kd → List Nat → Prop
  | .ex x, ns => Seqd (F.run (.ex { q := true, t := true })) F G (.ex x) ns ∨ (x.f = true ∧ F.run (.ex { f := true }) ns)
  | .pre, ns => Seqd (F.run (.ex { q := true, t := true })) F G .pre ns

/-- The links from a test to one branch, and a group made of the rest. -/
theorem W.half {h0 h : Heap} {F G : Fr} {Fs : List Fr} (w : W h0 h (F :: G :: Fs)) (one : F.one = true) (oG : G.one = true) (mu : F.multi = true) {B A : Nat}
    (hB : B ∈ G.ins) (hA : A ∈ F.ins) (gr : Heap → Heap × Nat)
    (mk : ∀ h S, Clean h → Reg h S → S A → h.IsB A → S F.out → h.IsB F.out → S G.out → h.IsB G.out →
      Gp h (gr h).1 S A (gr h).2 (fun d => d ∈ h.xJmp F.out ∨ d ∈ h.xOut G.out)) :
    ∃ h1 S', h.linkThen ω F.out B = some h1 ∧
      W h0 (gr h1).1 ({ S := S', ins := (gr h1).2 :: F.ins, out := (gr h1).2, head := F.head, run := HalfRun F G } :: Fs) := by
  obtain ⟨a, s1, f⟩ := w.frag F (by simp)
  obtain ⟨e, s2, g⟩ := w.frag G (by simp)
  have dis : ∀ i, F.S i → ¬ G.S i := (List.pairwise_cons.mp w.dis).1 G (by simp)
  obtain ⟨h1, e1, m1, r1, r2⟩ := linkThen_em fair w.clean f g dis one mu hB
  have r := f.ent.reg.union g.ent.reg dis
  have l1 := m1.ls w.clean r g.ent.se g.ent.ne
  have en : Ent h1 (Ext (Un F.S G.S) h h1) F.ins a := l1.ent w.clean g.ent.reg g.ent.se dis f.ent
  have sF : Ext (Un F.S G.S) h h1 F.out := .inl (.inl f.sX)
  have bF : h1.IsB F.out := (m1.isB _).mpr f.bX
  have oV := l1.outV g.ent.reg dis (by
    rintro d (rfl | k)
    · exact f.ent.reg.memO _ f.sX f.bX _ (f.last one).out.mem
    · exact f.ent.reg.memO _ f.sX f.bX _ k.1) (g.last oG).out
  have iA := en.ins A hA
  have gp := mk h1 _ l1.clean en.reg iA.sB iA.bB sF bF oV.sX oV.bX
  have hL : ∀ d, (d ∈ h1.xJmp F.out ∨ d ∈ h1.xOut G.out) → ∃ b, Ext (Un F.S G.S) h h1 b ∧ h1.IsB b ∧ d ∈ h1.O b := by
    rintro d (k | k)
    · exact ⟨F.out, sF, bF, (mem_xJmp.mp k).1⟩
    · exact ⟨G.out, oV.sX, oV.bX, (mem_xOut.mp k).1⟩
  have oN := gp.outVn l1.clean en.reg iA.sB oV (.inr (mem_xOut.mpr ⟨oV.mem, oV.hang⟩)) (by
    rintro d (k | k) q
    · exact absurd q (mem_xJmp.mp k).2.1
    · exact oV.uniq d (mem_xOut.mp k).1 q)
  refine ⟨h1, _, e1, W.step (Os := [F, G]) w (gp.clean l1.clean en.reg iA.sB) (by rw [gp.next]; exact Nat.le_succ_of_le l1.next) ?_ (e := a) (s := s2)
    (N := { S := Ext _ h1 (gr h1).1, ins := (gr h1).2 :: F.ins, out := (gr h1).2, head := F.head, run := HalfRun F G })
    ⟨gp.ent l1.clean en.reg en hA hL, oN.sX, oN.bX, by simp, fun _ => ⟨oN, by simp, by simp, by simp⟩, by simp, ?_, f.head⟩ ?_⟩
  · refine (l1.agree.mono ?_).trans (gp.frame l1.clean en.reg iA.sB ?_ ?_)
    · exact fun i k => ⟨k.1, k.2 F (by simp), k.2 G (by simp)⟩
    · intro i k; have := k.1; have := l1.next; omega
    · rintro i k ((q | q) | q)
      · exact k.2 F (by simp) q
      · exact k.2 G (by simp) q
      · omega
  · intro k ns q
    have go : Seqd (F.run (.ex { q := true, t := true })) F G k ns → Reach (gr h1).1 a (gr h1).2 k ns := fun q =>
      gp.reach l1.clean en.reg en.se en.ne (fun _ _ d md k2 _ => .inr (mem_xOut.mpr ⟨md, k2⟩)) (r1 k ns q)
    cases k with
    | pre => exact go q
    | ex x =>
      rcases q with q | ⟨xf, q⟩
      · exact go q
      · have := gp.reach (k := .ex { f := true }) l1.clean en.reg en.se en.ne (by
          rintro y ey d md k2 ok
          cases ey
          refine .inl (mem_xJmp.mpr ⟨md, ?_, k2⟩)
          rcases ok with ⟨k, _⟩ | ⟨b, _, k, _⟩
          · cases k
          · rw [k]; simp) (r2 ns q)
        obtain ⟨d, md, k1, k2, p⟩ := this
        refine ⟨d, md, k1, ?_, p⟩
        rcases k2 with ⟨k, _⟩ | ⟨b, k, k2⟩
        · cases k
        · cases b with
          | true => cases k
          | false => exact .inr ⟨false, xf, k2⟩
  · rintro i (((k | k) | k) | k)
    · exact .inl ⟨F, by simp, k⟩
    · exact .inl ⟨G, by simp, k⟩
    · exact .inr k.1
    · exact .inr (Nat.le_trans l1.next k.1)

end

end Mole.Cfg
