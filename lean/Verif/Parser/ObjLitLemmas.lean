import Verif.Parser.ObjLit
import Verif.Parser.ObjLitSpec
/-!
# Lemmas about the checks on object literals
-/
namespace Mole.Parser.Pat

mutual
/-- What `scan` asks of a tree; with `p`, the values of properties are not looked at. -/
def Clean (p : Bool) : E → Prop
  | .obj ps => CleanProps p ps ∧ protos ps ≤ 1
  | .paren e => Clean p e
  | .arr es => CleanElems p es
  | _ => True
def CleanElems (p : Bool) : Elems → Prop
  | .nil => True
  | .hole es | .spread _ _ es | .rest _ es => CleanElems p es
  | .cons e es => Clean p e ∧ CleanElems p es
def CleanProps (p : Bool) : Props → Prop
  | .nil => True
  | .short _ ps | .bare _ ps | .spread _ _ ps | .rest _ ps => CleanProps p ps
  | .kv _ v ps => (p = false → Clean p v) ∧ CleanProps p ps
  | .init _ _ _ | .initKey _ _ _ | .initPat _ _ _ => False
end

/-- The error is none of the two. -/
def Other {α : Type} : Except Why α → Prop
  | .error .dflt | .error .proto => False
  | _ => True

mutual
theorem scan_other (C : Cfg) (N si : Bool) : ∀ e, Clean false e → Other (scan C N si e)
  | .obj ps, h => by rw [scan]; exact scanProps_other C N ps false h.1 (by have := h.2; simp; omega)
  | .paren e, h => by rw [scan]; exact scan_other C N si e h
  | .arr es, h => by rw [scan]; exact scanElems_other C N si es h
  | .assign plain l r, _ => by rw [scan]; split <;> trivial
  | .name _, _ | .prim _, _ | .member _, _ | .fn _, _ | .other _, _ | .yield _, _ | .await _, _ | .un _, _ | .bin _ _, _
  | .arrPat _, _ | .objPat _, _ | .assignPat _ _, _ => by simp [scan, Other]
theorem scanElems_other (C : Cfg) (N si : Bool) : ∀ es, CleanElems false es → Other (scanElems C N si es)
  | .nil, _ => by simp [scanElems, Other]
  | .hole es, h | .spread _ _ es, h | .rest _ es, h => by rw [scanElems]; exact scanElems_other C N si es h
  | .cons e es, h => by
    rw [scanElems]
    have h1 := scan_other C N si e h.1
    split
    · exact scanElems_other C N si es h.2
    · rename_i x hx; rw [hx] at h1; exact h1
theorem scanProps_other (C : Cfg) (N : Bool) : ∀ ps seen, CleanProps false ps → protos ps + (if seen = true then 1 else 0) ≤ 1 →
    Other (scanProps C N seen ps)
  | .nil, _, _, _ => by simp [scanProps, Other]
  | .short _ ps, seen, h, hp | .spread _ _ ps, seen, h, hp | .rest _ ps, seen, h, hp => by
    rw [scanProps]; exact scanProps_other C N ps seen h hp
  | .kv k v ps, seen, h, hp => by
    rw [scanProps]
    have h1 := scan_other C N false v (h.1 rfl)
    simp only [protos] at hp
    split
    · split
      · rename_i hk
        simp only [hk, if_true] at hp
        split
        · rename_i hs; simp only [hs, if_true] at hp; omega
        · exact scanProps_other C N ps true h.2 (by simp; omega)
      · rename_i hk
        simp only [hk, if_false] at hp
        exact scanProps_other C N ps seen h.2 (by omega)
    · rename_i x hx; rw [hx] at h1; exact h1
  | .bare k ps, seen, h, hp => by
    rw [scanProps]
    simp only [protos] at hp
    split
    · rename_i hk
      simp only [hk, if_true] at hp
      split
      · rename_i hs; simp only [hs, if_true] at hp; omega
      · exact scanProps_other C N ps true h (by simp; omega)
    · rename_i hk
      simp only [hk, if_false] at hp
      exact scanProps_other C N ps seen h (by omega)
  | .init _ _ _, _, h, _ | .initKey _ _ _, _, h, _ | .initPat _ _ _, _, h, _ => h.elim
end

mutual
theorem scan_clean (C : Cfg) (si : Bool) : ∀ e, scan C false si e = .ok () → Clean false e
  | .obj ps, h => by
    rw [scan] at h
    have := scanProps_clean C ps false h
    exact ⟨this.1, by simpa using this.2⟩
  | .paren e, h => by rw [scan] at h; exact scan_clean C si e h
  | .arr es, h => by rw [scan] at h; exact scanElems_clean C si es h
  | .name _, _ | .prim _, _ | .member _, _ | .fn _, _ | .other _, _ | .yield _, _ | .await _, _ | .un _, _ | .bin _ _, _
  | .arrPat _, _ | .objPat _, _ | .assignPat _ _, _ | .assign _ _ _, _ => trivial
theorem scanElems_clean (C : Cfg) (si : Bool) : ∀ es, scanElems C false si es = .ok () → CleanElems false es
  | .nil, _ => trivial
  | .hole es, h | .spread _ _ es, h | .rest _ es, h => by rw [scanElems] at h; exact scanElems_clean C si es h
  | .cons e es, h => by
    rw [scanElems] at h
    split at h
    · rename_i u hu; exact ⟨scan_clean C si e hu, scanElems_clean C si es h⟩
    · cases h
theorem scanProps_clean (C : Cfg) : ∀ ps seen, scanProps C false seen ps = .ok () →
    CleanProps false ps ∧ protos ps + (if seen = true then 1 else 0) ≤ 1
  | .nil, seen, _ => ⟨trivial, by cases seen <;> simp [protos]⟩
  | .short _ ps, seen, h | .spread _ _ ps, seen, h | .rest _ ps, seen, h => by
    rw [scanProps] at h; exact scanProps_clean C ps seen h
  | .kv k v ps, seen, h => by
    rw [scanProps] at h
    simp only [protos]
    split at h
    · rename_i u hu
      have hv := scan_clean C false v hu
      split at h
      · rename_i hk
        simp only [hk, if_true]
        split at h
        · cases h
        · rename_i hs
          have := scanProps_clean C ps true h
          simp only [if_true] at this
          exact ⟨⟨fun _ => hv, this.1⟩, by simp only [hs]; have := this.2; simp; omega⟩
      · rename_i hk
        simp only [hk, if_false]
        have := scanProps_clean C ps seen h
        exact ⟨⟨fun _ => hv, this.1⟩, by have := this.2; omega⟩
    · cases h
  | .bare k ps, seen, h => by
    rw [scanProps] at h
    simp only [protos]
    split at h
    · rename_i hk
      simp only [hk, if_true]
      split at h
      · cases h
      · rename_i hs
        have := scanProps_clean C ps true h
        simp only [if_true] at this
        exact ⟨this.1, by simp only [hs]; have := this.2; simp; omega⟩
    · rename_i hk
      simp only [hk, if_false]
      have := scanProps_clean C ps seen h
      exact ⟨this.1, by have := this.2; omega⟩
  | .init _ _ _, seen, h | .initKey _ _ _, seen, h | .initPat _ _ _, seen, h => by simp [scanProps] at h
end

mutual
theorem clean_weaken : ∀ e, Clean false e → Clean true e
  | .obj ps, h => ⟨cleanProps_weaken ps h.1, h.2⟩
  | .paren e, h => clean_weaken e h
  | .arr es, h => cleanElems_weaken es h
  | .name _, _ | .prim _, _ | .member _, _ | .fn _, _ | .other _, _ | .yield _, _ | .await _, _ | .un _, _ | .bin _ _, _
  | .arrPat _, _ | .objPat _, _ | .assignPat _ _, _ | .assign _ _ _, _ => trivial
theorem cleanElems_weaken : ∀ es, CleanElems false es → CleanElems true es
  | .nil, _ => trivial
  | .hole es, h | .spread _ _ es, h | .rest _ es, h => cleanElems_weaken es h
  | .cons e es, h => ⟨clean_weaken e h.1, cleanElems_weaken es h.2⟩
theorem cleanProps_weaken : ∀ ps, CleanProps false ps → CleanProps true ps
  | .nil, _ => trivial
  | .short _ ps, h | .bare _ ps, h | .spread _ _ ps, h | .rest _ ps, h => cleanProps_weaken ps h
  | .kv _ v ps, h => ⟨nofun, cleanProps_weaken ps h.2⟩
  | .init _ _ _, h | .initKey _ _ _, h | .initPat _ _ _, h => h.elim
end

/-! ## What the trial leaves -/

theorem toParam_clean (C : Cfg) (p top : Bool) : ∀ e e', toParam C false top e = .ok e' → Clean p e'
  | .arr es, e', h => by rw [toParam] at h; split at h <;> cases h; trivial
  | .obj ps, e', h => by rw [toParam] at h; split at h <;> cases h; trivial
  | .objPat ps, e', h => by rw [toParam] at h; split at h <;> cases h; trivial
  | .assign plain l r, e', h => by
    rw [toParam] at h; repeat' split at h
    all_goals first | cases h; trivial | cases h
  | .name n, e', h => by rw [toParam] at h; split at h <;> cases h; trivial
  | .paren e, e', h => by rw [toParam] at h; simp at h
  | .prim _, e', h | .member _, e', h | .fn _, e', h | .other _, e', h | .yield _, e', h | .await _, e', h | .un _, e', h
  | .bin _ _, e', h | .arrPat _, e', h | .assignPat _ _, e', h => by
    rw [toParam] at h
    · repeat' split at h
      all_goals first | cases h; trivial | cases h
    all_goals nofun

theorem protos_residue (C : Cfg) : ∀ ps, protos (residueProps C false ps) = protos ps
  | .nil => by simp [residueProps]
  | .short n ps => by
    rw [residueProps]; split <;> simp only [protos, protos_residue C ps]
  | .kv k v ps => by
    rw [residueProps]; repeat' split
    all_goals simp only [protos, protos_residue C ps]
  | .init n v ps => by
    rw [residueProps]; repeat' split
    all_goals simp only [protos, protos_residue C ps]
  | .initKey n v ps => by
    rw [residueProps]; repeat' split
    all_goals simp only [protos, protos_residue C ps]
  | .initPat n v ps => by
    rw [residueProps]; repeat' split
    all_goals simp only [protos, protos_residue C ps]
  | .spread _ _ ps => by
    rw [residueProps]; repeat' split
    all_goals simp only [protos, protos_residue C ps]
  | .bare _ ps => by simp [residueProps]
  | .rest _ ps => by simp [residueProps]

mutual
theorem residue_clean (C : Cfg) : ∀ e, Clean false e → Clean false (residue C false e)
  | .obj ps, h => by
    rw [residue]; exact ⟨residueProps_clean C ps h.1, by rw [protos_residue]; exact h.2⟩
  | .arr es, h => by rw [residue]; exact residueElems_clean C es h
  | .objPat ps, _ => by rw [residue]; trivial
  | .assign plain l r, _ => by rw [residue]; split <;> trivial
  | .paren e, h => by rw [residue] <;> first | exact h | nofun
  | .name _, _ | .prim _, _ | .member _, _ | .fn _, _ | .other _, _ | .yield _, _ | .await _, _ | .un _, _ | .bin _ _, _
  | .arrPat _, _ | .assignPat _ _, _ => by rw [residue] <;> first | trivial | nofun
theorem residueElems_clean (C : Cfg) : ∀ es, CleanElems false es → CleanElems false (residueElems C false es)
  | .nil, _ => by simp [residueElems, CleanElems]
  | .hole es, h => by rw [residueElems]; exact residueElems_clean C es h
  | .cons e es, h => by
    rw [residueElems]; split
    · exact ⟨residue_clean C e h.1, residueElems_clean C es h.2⟩
    · exact ⟨residue_clean C e h.1, h.2⟩
  | .spread tc e es, h => by
    rw [residueElems]; repeat' split
    all_goals first | exact residueElems_clean C es h | exact h
  | .rest _ es, h => by rw [residueElems] <;> first | exact h | nofun
theorem residueProps_clean (C : Cfg) : ∀ ps, CleanProps false ps → CleanProps false (residueProps C false ps)
  | .nil, _ => by simp [residueProps, CleanProps]
  | .short n ps, h => by
    rw [residueProps]; split
    · exact residueProps_clean C ps h
    · exact h
  | .kv k v ps, h => by
    rw [residueProps]; split
    · exact h
    · split
      · rename_i v' hv
        exact ⟨fun _ => toParam_clean C false false v v' hv, residueProps_clean C ps h.2⟩
      · exact ⟨fun _ => residue_clean C v (h.1 rfl), h.2⟩
  | .spread tc e ps, h => by
    rw [residueProps]; repeat' split
    all_goals first | exact residueProps_clean C ps h | exact h
  | .bare _ ps, h => by rw [residueProps] <;> first | exact h | nofun
  | .rest _ ps, h => by rw [residueProps] <;> first | exact h | nofun
  | .init _ _ _, h | .initKey _ _ _, h | .initPat _ _ _, h => h.elim
end

mutual
/-- What is left is without defaults only if there were none. -/
theorem clean_of_residue (C : Cfg) : ∀ e, Clean true (residue C false e) → Clean true e
  | .obj ps, h => by
    rw [residue] at h; exact ⟨cleanProps_of_residue C ps h.1, by rw [← protos_residue C]; exact h.2⟩
  | .arr es, h => by rw [residue] at h; exact cleanElems_of_residue C es h
  | .paren e, h => by rw [residue] at h <;> first | exact h | nofun
  | .objPat ps, _ | .assign plain l r, _
  | .name _, _ | .prim _, _ | .member _, _ | .fn _, _ | .other _, _ | .yield _, _ | .await _, _ | .un _, _ | .bin _ _, _
  | .arrPat _, _ | .assignPat _ _, _ => trivial
theorem cleanElems_of_residue (C : Cfg) : ∀ es, CleanElems true (residueElems C false es) → CleanElems true es
  | .nil, _ => trivial
  | .hole es, h => by rw [residueElems] at h; exact cleanElems_of_residue C es h
  | .cons e es, h => by
    rw [residueElems] at h; split at h
    · exact ⟨clean_of_residue C e h.1, cleanElems_of_residue C es h.2⟩
    · exact ⟨clean_of_residue C e h.1, h.2⟩
  | .spread tc e es, h => by
    rw [residueElems] at h; repeat' split at h
    all_goals first | exact cleanElems_of_residue C es h | exact h
  | .rest _ es, h => by rw [residueElems] at h <;> first | exact h | nofun
theorem cleanProps_of_residue (C : Cfg) : ∀ ps, CleanProps true (residueProps C false ps) → CleanProps true ps
  | .nil, _ => trivial
  | .short n ps, h => by
    rw [residueProps] at h; split at h
    · exact cleanProps_of_residue C ps h
    · exact h
  | .kv k v ps, h => by
    refine ⟨nofun, ?_⟩
    rw [residueProps] at h; repeat' split at h
    all_goals first | exact cleanProps_of_residue C ps h.2 | exact h.2
  | .spread tc e ps, h => by
    rw [residueProps] at h; repeat' split at h
    all_goals first | exact cleanProps_of_residue C ps h | exact h
  | .bare _ ps, h => by rw [residueProps] at h <;> first | exact h | nofun
  | .rest _ ps, h => by rw [residueProps] at h <;> first | exact h | nofun
  | .init _ _ _, h | .initKey _ _ _, h | .initPat _ _ _, h => by
    rw [residueProps] at h; repeat' split at h
    all_goals exact h.elim
end

/-! ## What is fine is not refused -/

theorem other_err {α β : Type} {x : Why} (h : Other (.error x : Except Why α)) : Other (.error x : Except Why β) := by
  cases x <;> first | exact h | trivial

/-- A read result: the error is none of the two, and what is read satisfies `P`. -/
def Good {α : Type} (r : Except Why α) (P : α → Prop) : Prop := Other r ∧ ∀ a, r = .ok a → P a

theorem good_ok {α : Type} {a : α} {P : α → Prop} (h : P a) : Good (.ok a) P := ⟨trivial, fun _ e => by cases e; exact h⟩

theorem good_err {α β : Type} {x : Why} {P : α → Prop} {Q : β → Prop} (h : Good (.error x : Except Why α) P) :
    Good (.error x : Except Why β) Q := ⟨other_err h.1, nofun⟩

theorem good_other {α : Type} {x : PErr} {P : α → Prop} : Good (.error (.other x) : Except Why α) P := ⟨trivial, nofun⟩

theorem good_shut (C : Cfg) (N : Bool) {e : E} (h : Clean false e) : Good (shut C N e) (Clean false) := by
  unfold shut
  split
  · exact good_other
  · have hs := scan_other C N true _ (residue_clean C e h)
    split
    · exact good_ok (residue_clean C e h)
    · rename_i x hx; rw [hx] at hs; exact ⟨other_err hs, nofun⟩

mutual
theorem readE_good (C : Cfg) : ∀ (e : E) (t N chk : Bool), Fine t e → Good (readE C N chk e) fun e' => t = false → Clean false e'
  | .await e, t, N, chk, h => by
    rw [readE]
    have h1 := readE_good C e false N true h
    split
    · exact good_ok fun _ => trivial
    · rename_i x hx; rw [hx] at h1; exact good_err h1
  | .un e, t, N, chk, h => by
    rw [readE]
    have h1 := readE_good C e false N true h
    split
    · exact good_ok fun _ => trivial
    · rename_i x hx; rw [hx] at h1; exact good_err h1
  | .bin a b, t, N, chk, h => by
    rw [readE]
    have h1 := readE_good C a false N true h.1
    have h2 := readE_good C b false N true h.2
    split
    · split
      · exact good_ok fun _ => trivial
      · rename_i x hx; rw [hx] at h2; exact good_err h2
    · rename_i x hx; rw [hx] at h1; exact good_err h1
  | .paren e, t, N, chk, h => by
    rw [readE]
    have h1 := readE_good C e false false false h
    split
    · rename_i e' he
      have h2 := good_shut C N (h1.2 e' he rfl)
      exact ⟨h2.1, fun a ha _ => h2.2 a ha⟩
    · rename_i x hx; rw [hx] at h1; exact good_err h1
  | .arr es, t, N, chk, h => by
    rw [readE]
    have h1 := readElems_good C es t N h
    split
    · rename_i es' he; exact good_ok fun ht => h1.2 es' he ht
    · rename_i x hx; rw [hx] at h1; exact good_err h1
  | .obj ps, t, N, chk, h => by
    rw [readE]
    have h1 := readProps_good C ps t N h.1
    split
    · rename_i ps' he; exact good_ok fun ht => ⟨(h1.2 ps' he ht).1, by rw [(h1.2 ps' he ht).2]; exact h.2 ht⟩
    · rename_i x hx; rw [hx] at h1; exact good_err h1
  | .assign plain l r, t, N, chk, h => by
    rw [readE]
    have h1 := readE_good C l plain N chk h.1
    have h2 := readE_good C r false N chk h.2
    split
    · split
      · rename_i r' hr
        split
        · have h3 := scan_other C N false r' (h2.2 r' hr rfl)
          split
          · exact good_ok fun _ => trivial
          · rename_i x hx; rw [hx] at h3; exact ⟨other_err h3, nofun⟩
        · exact good_other
      · rename_i x hx; rw [hx] at h2; exact good_err h2
    · rename_i x hx; rw [hx] at h1; exact good_err h1
  | .name _, t, N, chk, _ | .prim _, t, N, chk, _ | .member _, t, N, chk, _ | .fn _, t, N, chk, _ | .other _, t, N, chk, _
  | .yield _, t, N, chk, _ => by
    rw [readE] <;> first | exact good_ok fun _ => trivial | nofun
  | .arrPat _, t, N, chk, h | .objPat _, t, N, chk, h | .assignPat _ _, t, N, chk, h => h.elim
theorem readElems_good (C : Cfg) : ∀ (es : Elems) (t N : Bool), FineElems t es →
    Good (readElems C N es) fun es' => t = false → CleanElems false es'
  | .nil, t, N, _ => by rw [readElems]; exact good_ok fun _ => trivial
  | .hole es, t, N, h => by
    rw [readElems]
    have h1 := readElems_good C es t N h
    split
    · rename_i es' he; exact good_ok fun ht => h1.2 es' he ht
    · rename_i x hx; rw [hx] at h1; exact good_err h1
  | .cons e es, t, N, h => by
    rw [readElems]
    have h0 := readE_good C e t N true h.1
    have h1 := readElems_good C es t N h.2
    split
    · rename_i e' hee
      split
      · rename_i es' he; exact good_ok fun ht => ⟨h0.2 e' hee ht, h1.2 es' he ht⟩
      · rename_i x hx; rw [hx] at h1; exact good_err h1
    · rename_i x hx; rw [hx] at h0; exact good_err h0
  | .spread tc e es, t, N, h => by
    rw [readElems]
    have h0 := readE_good C e t N true h.1
    have h1 := readElems_good C es t N h.2
    split
    · split
      · rename_i es' he; exact good_ok fun ht => h1.2 es' he ht
      · rename_i x hx; rw [hx] at h1; exact good_err h1
    · rename_i x hx; rw [hx] at h0; exact good_err h0
  | .rest _ _, t, N, h => h.elim
theorem readProps_good (C : Cfg) : ∀ (ps : Props) (t N : Bool), FineProps t ps →
    Good (readProps C N ps) fun ps' => t = false → CleanProps false ps' ∧ protos ps' = protos ps
  | .nil, t, N, _ => by rw [readProps]; exact good_ok fun _ => ⟨trivial, rfl⟩
  | .short n ps, t, N, h => by
    rw [readProps]
    have h1 := readProps_good C ps t N h
    split
    · rename_i es' he; exact good_ok fun ht => h1.2 es' he ht
    · rename_i x hx; rw [hx] at h1; exact good_err h1
  | .kv k v ps, t, N, h => by
    rw [readProps]
    have h0 := readE_good C v t N true h.1
    have h1 := readProps_good C ps t N h.2
    split
    · rename_i e' hee
      split
      · rename_i es' he
        exact good_ok fun ht => ⟨⟨fun _ => h0.2 e' hee ht, (h1.2 es' he ht).1⟩, by simp only [protos, (h1.2 es' he ht).2]⟩
      · rename_i x hx; rw [hx] at h1; exact good_err h1
    · rename_i x hx; rw [hx] at h0; exact good_err h0
  | .init n v ps, t, N, h => by
    rw [readProps]
    have h0 := readE_good C v false N true h.2.1
    have h1 := readProps_good C ps t N h.2.2
    split
    · split
      · exact good_ok fun ht => by rw [h.1] at ht; cases ht
      · rename_i x hx; rw [hx] at h1; exact good_err h1
    · rename_i x hx; rw [hx] at h0; exact good_err h0
  | .spread tc e ps, t, N, h => by
    rw [readProps]
    have h0 := readE_good C e t N true h.1
    have h1 := readProps_good C ps t N h.2
    split
    · split
      · rename_i es' he; exact good_ok fun ht => h1.2 es' he ht
      · rename_i x hx; rw [hx] at h1; exact good_err h1
    · rename_i x hx; rw [hx] at h0; exact good_err h0
  | .initKey _ _ _, t, N, h | .initPat _ _ _, t, N, h | .bare _ _, t, N, h | .rest _ _, t, N, h => h.elim
end

/-! ## What is not refused is fine -/

theorem scan_ok {C : Cfg} {N si : Bool} {e : E} {u : Unit} (h : scan C N si e = .ok u) : scan C N si e = .ok () := h

mutual
theorem readE_fine (C : Cfg) : ∀ (e : E) (p t chk : Bool) (e' : E), readE C false chk e = .ok e' → Open p t e →
    (t = false → Clean p e') → (t = true → ∃ top r, toParam C true top e' = .ok r) → Fine t e
  | .await e, p, t, chk, e', _, ho, _, _ | .un e, p, t, chk, e', _, ho, _, _ => ho
  | .bin a b, p, t, chk, e', _, ho, _, _ => ho
  | .paren e, p, t, chk, e', h, ho, _, _ => by
    rw [readE] at h
    split at h
    · rename_i e1 he
      unfold shut at h
      split at h
      · cases h
      · split at h
        · rename_i u hu
          exact readE_fine C e true false false e1 he ho
            (fun _ => clean_of_residue C e1 (clean_weaken _ (scan_clean C true _ (scan_ok hu)))) nofun
        · cases h
    · cases h
  | .arr es, p, t, chk, e', h, ho, hc, hp => by
    rw [readE] at h
    split at h
    · rename_i es' he
      cases h
      refine readElems_fine C es p t es' he ho hc fun ht => ?_
      obtain ⟨top, r, hr⟩ := hp ht
      rw [toParam] at hr
      split at hr
      · rename_i r' hr'; exact ⟨r', hr'⟩
      · cases hr
    · cases h
  | .obj ps, p, t, chk, e', h, ho, hc, hp => by
    rw [readE] at h
    split at h
    · rename_i ps' he
      cases h
      have := readProps_fine C ps p t ps' he ho (fun ht => (hc ht).1) fun ht => by
        obtain ⟨top, r, hr⟩ := hp ht
        rw [toParam] at hr
        split at hr
        · rename_i r' hr'; exact ⟨r', hr'⟩
        · cases hr
      exact ⟨this.1, fun ht => by rw [← this.2]; exact (hc ht).2⟩
    · cases h
  | .assign plain l r, p, t, chk, e', h, ho, hc, hp => by
    rw [readE] at h
    split at h
    · rename_i l' hl
      split at h
      · rename_i r' hr
        split at h
        · rename_i l2 hl2
          split at h
          · rename_i u hu
            refine ⟨?_, readE_fine C r false false chk r' hr ho.2 (fun _ => scan_clean C false _ (scan_ok hu)) nofun⟩
            cases plain
            · exact ho.1
            · refine readE_fine C l false true chk l' hl ho.1 nofun fun _ => ⟨false, ?_⟩
              unfold target at hl2
              split at hl2
              · rename_i x hx; exact ⟨x, hx⟩
              · cases hl2
          · cases h
        · cases h
      · cases h
    · cases h
  | .name _, p, t, chk, e', _, _, _, _ | .prim _, p, t, chk, e', _, _, _, _ | .member _, p, t, chk, e', _, _, _, _
  | .fn _, p, t, chk, e', _, _, _, _ | .other _, p, t, chk, e', _, _, _, _ | .yield _, p, t, chk, e', _, _, _, _ => trivial
  | .arrPat _, p, t, chk, e', _, h, _, _ | .objPat _, p, t, chk, e', _, h, _, _ | .assignPat _ _, p, t, chk, e', _, h, _, _ => h.elim
theorem readElems_fine (C : Cfg) : ∀ (es : Elems) (p t : Bool) (es' : Elems), readElems C false es = .ok es' → OpenElems p t es →
    (t = false → CleanElems p es') → (t = true → ∃ r, toElems C true es' = .ok r) → FineElems t es
  | .nil, p, t, es', _, _, _, _ => trivial
  | .hole es, p, t, es', h, ho, hc, hp => by
    rw [readElems] at h
    split at h
    · rename_i es1 he
      cases h
      refine readElems_fine C es p t es1 he ho hc fun ht => ?_
      obtain ⟨r, hr⟩ := hp ht
      rw [toElems] at hr
      split at hr
      · rename_i r' hr'; exact ⟨r', hr'⟩
      · cases hr
    · cases h
  | .cons e es, p, t, es', h, ho, hc, hp => by
    rw [readElems] at h
    split at h
    · rename_i e1 he1
      split at h
      · rename_i es1 he
        cases h
        have hp' : t = true → (∃ top r, toParam C true top e1 = .ok r) ∧ ∃ r, toElems C true es1 = .ok r := fun ht => by
          obtain ⟨r, hr⟩ := hp ht
          rw [toElems] at hr
          split at hr
          · rename_i a ha
            split at hr
            · rename_i b hb; exact ⟨⟨false, a, ha⟩, b, hb⟩
            · cases hr
          · cases hr
        exact ⟨readE_fine C e p t true e1 he1 ho.1 (fun ht => (hc ht).1) fun ht => (hp' ht).1,
          readElems_fine C es p t es1 he ho.2 (fun ht => (hc ht).2) fun ht => (hp' ht).2⟩
      · cases h
    · cases h
  | .spread tc e es, p, t, es', h, ho, hc, hp => by
    rw [readElems] at h
    split at h
    · rename_i e1 he1
      split at h
      · rename_i es1 he
        cases h
        have hp' : t = true → (∃ top r, toParam C true top e1 = .ok r) ∧ ∃ r, toElems C true es1 = .ok r := fun ht => by
          obtain ⟨r, hr⟩ := hp ht
          rw [toElems] at hr
          split at hr
          · cases hr
          · split at hr
            · split at hr
              · rename_i a ha
                split at hr
                · rename_i b hb; exact ⟨⟨false, a, ha⟩, b, hb⟩
                · cases hr
              · cases hr
            · cases hr
        refine ⟨?_, readElems_fine C es p t es1 he ho.2 hc fun ht => (hp' ht).2⟩
        have ho1 := ho.1
        cases t
        · exact ho1
        · exact readE_fine C e p true true e1 he1 ho1 nofun fun ht => (hp' ht).1
      · cases h
    · cases h
  | .rest _ _, p, t, es', _, h, _, _ => h.elim
theorem readProps_fine (C : Cfg) : ∀ (ps : Props) (p t : Bool) (ps' : Props), readProps C false ps = .ok ps' → OpenProps p t ps →
    (t = false → CleanProps p ps') → (t = true → ∃ r, toProps C true ps' = .ok r) → FineProps t ps ∧ protos ps' = protos ps
  | .nil, p, t, ps', h, _, _, _ => by rw [readProps] at h; cases h; exact ⟨trivial, rfl⟩
  | .short n ps, p, t, ps', h, ho, hc, hp => by
    rw [readProps] at h
    split at h
    · rename_i es1 he
      cases h
      refine readProps_fine C ps p t es1 he ho hc fun ht => ?_
      obtain ⟨r, hr⟩ := hp ht
      rw [toProps] at hr
      split at hr
      · split at hr
        · rename_i r' hr'; exact ⟨r', hr'⟩
        · cases hr
      · cases hr
    · cases h
  | .kv k v ps, p, t, ps', h, ho, hc, hp => by
    rw [readProps] at h
    split at h
    · rename_i e1 he1
      split at h
      · rename_i es1 he
        cases h
        have hp' : t = true → (∃ top r, toParam C true top e1 = .ok r) ∧ ∃ r, toProps C true es1 = .ok r := fun ht => by
          obtain ⟨r, hr⟩ := hp ht
          rw [toProps] at hr
          split at hr
          · cases hr
          · split at hr
            · rename_i a ha
              split at hr
              · rename_i b hb; exact ⟨⟨false, a, ha⟩, b, hb⟩
              · cases hr
            · cases hr
        have h2 := readProps_fine C ps p t es1 he ho.2 (fun ht => (hc ht).2) fun ht => (hp' ht).2
        refine ⟨⟨?_, h2.1⟩, by simp only [protos, h2.2]⟩
        have ho1 := ho.1
        cases t
        · cases p
          · exact readE_fine C v false false true e1 he1 ho1 (fun ht => (hc ht).1 rfl) nofun
          · exact ho1
        · have ho2 : Open p true v := by cases p <;> exact ho1
          exact readE_fine C v p true true e1 he1 ho2 nofun fun ht => (hp' ht).1
      · cases h
    · cases h
  | .init n v ps, p, t, ps', h, ho, hc, hp => by
    rw [readProps] at h
    split at h
    · rename_i e1 he1
      split at h
      · rename_i es1 he
        cases h
        cases t
        · exact (hc rfl).elim
        · have hp' : true = true → ∃ r, toProps C true es1 = .ok r := fun ht => by
            obtain ⟨r, hr⟩ := hp ht
            rw [toProps] at hr
            repeat' split at hr
            all_goals first | exact ⟨_, by assumption⟩ | cases hr
          have h2 := readProps_fine C ps p true es1 he ho.2 nofun hp'
          exact ⟨⟨rfl, ho.1, h2.1⟩, by simp only [protos, h2.2]⟩
      · cases h
    · cases h
  | .initKey k v ps, p, t, ps', h, ho, hc, hp => by
    rw [readProps] at h
    split at h
    · split at h
      · split at h
        · cases h; exact (hc ho.1).elim
        · cases h
      · cases h
    · cases h
  | .bare k ps, p, t, ps', h, ho, hc, hp => by
    rw [readProps] at h
    split at h
    · cases h
      obtain ⟨r, hr⟩ := hp ho.1
      rw [toProps] at hr; cases hr
    · cases h
  | .spread tc e ps, p, t, ps', h, ho, hc, hp => by
    rw [readProps] at h
    split at h
    · rename_i e1 he1
      split at h
      · rename_i es1 he
        cases h
        have hp' : t = true → (∃ top r, toParam C true top e1 = .ok r) ∧ ∃ r, toProps C true es1 = .ok r := fun ht => by
          obtain ⟨r, hr⟩ := hp ht
          rw [toProps] at hr
          split at hr
          · cases hr
          · split at hr
            · split at hr
              · rename_i a ha
                split at hr
                · rename_i b hb; exact ⟨⟨false, a, ha⟩, b, hb⟩
                · cases hr
              · cases hr
            · cases hr
        have h2 := readProps_fine C ps p t es1 he ho.2 hc fun ht => (hp' ht).2
        refine ⟨⟨?_, h2.1⟩, by simp only [protos, h2.2]⟩
        have ho1 := ho.1
        cases t
        · exact ho1
        · exact readE_fine C e p true true e1 he1 ho1 nofun fun ht => (hp' ht).1
      · cases h
    · cases h
  | .initPat _ _ _, p, t, ps', _, h, _, _ | .rest _ _, p, t, ps', _, h, _, _ => h.elim
end

end Mole.Parser.Pat
