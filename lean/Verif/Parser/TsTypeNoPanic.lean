import Verif.Parser.TsTypeSound

/-! # When reading a type does not crash (for C80) -/

namespace Mole.Parser.TsType
variable {X : Type} {α β : Type} {C : Cfg X}

/-- No `const` among the tokens. -/
def NoConst (s : List Tok) : Prop := ∀ x ∈ s, x.k ≠ .const_

/-- The other parts of the parser leave tokens of the source. -/
def Cfg.Keeps (C : Cfg X) : Prop :=
  ∀ s x r, (∃ b, C.obj b s = some (x, r)) ∨ C.tpl s = some (x, r) ∨ C.param s = some (x, r) ∨ C.tparams s = some (x, r) →
    ∀ y ∈ r, y ∈ s

/-- It does not crash, and leaves no `const`. -/
def NpAt (m : M α) (s : List Tok) : Prop :=
  match m s with
  | .ok _ r => NoConst r
  | .panic => False
  | _ => True

structure Np (m : M α) : Prop where
  go : ∀ s, NoConst s → NpAt m s

theorem np_bindAt {m : M α} {f : α → M β} {s : List Tok} (h : NpAt m s) (hf : ∀ a, Np (f a)) : NpAt (m >>= f) s := by
  unfold NpAt at h ⊢
  change match (match m s with | .ok a r => f a r | .err => .err | .panic => .panic | .fuel => .fuel) with
    | .ok _ r => NoConst r | .panic => False | _ => True
  cases hm : m s with
  | ok a r => rw [hm] at h; exact (hf a).go r h
  | err => trivial
  | panic => rw [hm] at h; exact h
  | fuel => trivial

theorem np_bind {m : M α} {f : α → M β} (h : Np m) (hf : ∀ a, Np (f a)) : Np (m >>= f) := ⟨fun s hs => np_bindAt (h.go s hs) hf⟩

theorem np_pure {a : α} : Np (pure a : M α) := ⟨fun _ hs => hs⟩

theorem np_fail : Np (fail : M α) := ⟨fun _ _ => trivial⟩

theorem np_fuel : Np (outOfFuel : M α) := ⟨fun _ _ => trivial⟩

theorem hd_ne {s : List Tok} (hs : NoConst s) : (hd s).k ≠ .const_ := by
  cases s with
  | nil => simp [hd]
  | cons x l => exact hs x (by simp)

theorem tail_nc {s : List Tok} (hs : NoConst s) : NoConst s.tail := fun x hx => hs x (List.mem_of_mem_tail hx)

theorem np_peek {f : Tok → M β} (h : ∀ a, a.k ≠ .const_ → Np (f a)) : Np (peek >>= f) := ⟨fun s hs => (h (hd s) (hd_ne hs)).go s hs⟩

theorem np_peekAt {f : Tok → M β} {s : List Tok} (h : NpAt (f (hd s)) s) : NpAt (peek >>= f) s := h

theorem np_peek2 {f : Tok → M β} (h : ∀ a, Np (f a)) : Np (peek2 >>= f) := ⟨fun s hs => (h (hd s.tail)).go s hs⟩

theorem np_next {f : Unit → M β} (h : Np (f ())) : Np (next >>= f) := ⟨fun s hs => h.go s.tail (tail_nc hs)⟩

theorem np_must {k : K} {f : Unit → M β} (h : Np (f ())) : Np (must k >>= f) := by
  refine np_bind ⟨fun s hs => ?_⟩ fun _ => h
  unfold NpAt must
  split
  · rename_i e; split at e
    · cases e; exact tail_nc hs
    · cases e
  · rename_i e; split at e <;> cases e
  · trivial

theorem np_call {f : List Tok → Option (X × List Tok)} {g : X → M β} (hf : ∀ s x r, f s = some (x, r) → ∀ y ∈ r, y ∈ s)
    (h : ∀ x, Np (g x)) : Np (call f >>= g) := by
  refine np_bind ⟨fun s hs => ?_⟩ h
  unfold NpAt call
  cases hx : f s with
  | none => trivial
  | some p => exact fun y hy => hs y (hf s p.1 p.2 hx y hy)

theorem np_ite {c : Prop} [Decidable c] {m n : M α} (h1 : c → Np m) (h2 : ¬c → Np n) : Np (if c then m else n) := by
  split
  · exact h1 ‹_›
  · exact h2 ‹_›

theorem np_ident : Np ident := by
  refine ⟨fun s hs => ?_⟩
  unfold NpAt ident
  split
  · rename_i e; split at e
    · cases e; exact tail_nc hs
    · cases e
  · rename_i e; split at e <;> cases e
  · trivial

theorem np_identKw : Np identKw := by
  refine ⟨fun s hs => ?_⟩
  unfold NpAt identKw
  cases kwText (hd s).k with
  | some v => exact tail_nc hs
  | none => exact np_ident.go s hs

theorem np_nameLoop (k : Nat) : ∀ m, Np (nameLoop k m) := by
  induction k with
  | zero => exact fun m => ⟨fun s hs => hs⟩
  | succ k ih =>
    refine fun m => ⟨fun s hs => ?_⟩
    unfold NpAt
    rw [nameLoop]
    by_cases h : (hd s).k = .dot
    · simp only [if_pos h]
      exact (np_next (f := fun _ => do let v ← identKw; nameLoop k (.dot m v)) (np_bind np_identKw fun v => ih _)).go s hs
    · simp only [if_neg h]
      exact hs

theorem np_typName (ns : Option Name) : Np (typName ns) := by
  unfold typName
  refine np_bind ?_ fun m => ⟨fun s hs => (np_nameLoop _ m).go s hs⟩
  unfold firstName
  cases ns with
  | some n => exact np_pure
  | none => exact np_bind np_identKw fun v => np_pure

structure Nps (r : Rec X) : Prop where
  typ : ∀ F, Np (r.typ F)
  uni : ∀ a b c d, Np (r.uni a b c d)
  loop : ∀ a b c d e f, Np (r.loop a b c d e f)
  prim : ∀ F, Np (r.prim F)
  arr : ∀ t, Np (r.arr t)
  args : ∀ c l, Np (r.args c l)
  mem : ∀ b, Np (r.mem b)
  mems : ∀ b l, Np (r.mems b l)
  params : ∀ l, Np (r.params l)

/-- One step of the proof. -/
syntax "np1" term : tactic
macro_rules
  | `(tactic| np1 $H) => `(tactic| first
    | exact np_pure
    | exact np_fail
    | exact ($H).typ _
    | exact ($H).uni _ _ _ _
    | exact ($H).loop _ _ _ _ _ _
    | exact ($H).prim _
    | exact ($H).arr _
    | exact ($H).args _ _
    | exact ($H).mem _
    | exact ($H).mems _ _
    | exact ($H).params _
    | exact np_ident
    | exact np_typName _
    | apply np_peek
    | apply np_peek2
    | apply np_next
    | apply np_must
    | apply np_ite
    | apply np_bind
    | intro _
    | (split))

variable {r : Rec X}

theorem np_loop (H : Nps r) (a b c d e f) : Np (uniLoop r a b c d e f) := by
  unfold uniLoop climb
  repeat' np1 H

theorem np_uni (H : Nps r) (a b c d) : Np (uni r a b c d) := by
  unfold uni operand
  cases a <;> repeat' np1 H

theorem np_params (K : C.Keeps) (H : Nps r) (l) : Np (paramLoop C r l) := by
  unfold paramLoop
  have hk : ∀ (g : X → M (List (Nd X))), (∀ x, Np (g x)) → Np (call C.param >>= g) := fun g =>
    np_call fun s x r h => K s x r (.inr (.inr (.inl h)))
  repeat' (first | apply hk | np1 H)

theorem np_roughList (H : Nps r) : Np (roughList r) := by
  unfold roughList roughParam opt anno
  repeat' np1 H

theorem np_tpars (K : C.Keeps) : Np (tpars C) := by
  unfold tpars
  refine np_peek fun a _ => np_ite (fun _ => ?_) (fun _ => np_pure)
  exact np_call (fun s x r h => K s x r (.inr (.inr (.inr h)))) fun x => np_pure

theorem np_paren (K : C.Keeps) (H : Nps r) : Np (paren C r) := by
  unfold paren
  refine np_bind (np_tpars K) fun tp => np_bind (np_roughList H) fun ps => ?_
  repeat' np1 H

theorem np_arr (H : Nps r) (t) : Np (arrLoop r t) := by
  unfold arrLoop
  repeat' np1 H

theorem np_args (H : Nps r) (c l) : Np (argLoop C r c l) := by
  unfold argLoop argM argExt
  repeat' np1 H

theorem np_mem (H : Nps r) (b) : Np (member r b) := by
  unfold member
  repeat' np1 H

theorem np_mems (H : Nps r) (b l) : Np (memLoop r b l) := by
  unfold memLoop
  repeat' np1 H

theorem np_predicate (H : Nps r) (w a b) : Np (predicate r w a b) := by
  unfold predicate about
  repeat' np1 H

theorem np_suffix (H : Nps r) (F t) : Np (suffix r F t) := by
  unfold suffix conditional
  repeat' np1 H

theorem np_construct (K : C.Keeps) (H : Nps r) (b) : Np (construct C r b) := by
  unfold construct
  refine np_next (np_bind (np_tpars K) fun tp => ?_)
  repeat' np1 H

theorem np_import (H : Nps r) : Np (importTyp r) := by
  unfold importTyp qualifier typArgs
  repeat' np1 H

theorem np_ref (H : Nps r) (n) : Np (ref r (some n)) := by
  unfold ref typArgs
  repeat' (first | exact np_predicate H _ _ _ | np1 H)

theorem np_refNone {s : List Tok} (h : (hd s).k = .dot) : ref r none s = .err := by
  obtain ⟨nl, s', rfl⟩ := of_hd h (by decide)
  rfl

theorem np_predefOrRef (H : Nps r) {a : Tok} (ha : (∃ v, a.k = .name v) ∨ a.k = .void) (s : List Tok) (hs : NoConst s) (e : hd s = a) :
    NpAt (predefOrRef r) s := by
  have e' : predefOrRef r s = (match (hd s).k with
    | .name s => do
      next
      let b ← peek
      if builtin s = true ∧ b.k ≠ .dot then return .predef s else ref r (some (.id s))
    | .void => do
      next
      let b ← peek
      if b.k ≠ .dot then return .predef "void" else ref r none
    | _ => ref r none : M (Nd X)) s := rfl
  unfold NpAt
  rw [e', e]
  rcases ha with ⟨v, h⟩ | h
  · rw [h]
    exact (np_next (np_peek fun b _ => np_ite (fun _ => np_pure) fun _ => np_ref H _)).go s hs
  · rw [h]
    refine (np_next ⟨fun s hs => ?_⟩).go s hs
    show NpAt (if (hd s).k ≠ .dot then pure (.predef "void") else ref r none) s
    by_cases hd : (hd s).k = .dot
    · rw [if_neg (by simp [hd])]
      unfold NpAt
      rw [np_refNone hd]; trivial
    · rw [if_pos hd]; exact hs

theorem np_primName (K : C.Keeps) (H : Nps r) (F : Fl) (s : List Tok) (hs : NoConst s)
    (ha : (∃ v, (hd s).k = .name v) ∨ (hd s).k = .void) : NpAt (primName C r F (hd s)) s := by
  unfold primName
  show NpAt (ite _ _ _) s
  have np_at : ∀ {m : M (Nd X)}, Np m → NpAt m s := fun h => h.go s hs
  split
  · exact np_at (np_next (np_construct K H _))
  · split
    · exact np_at (np_next (np_bind (np_typName _) fun n => np_suffix H _ _))
    · split
      · exact np_at (np_next (np_bind (H.typ _) fun n => np_suffix H _ _))
      · split
        · exact np_at np_fail
        · refine np_at (np_next (np_bind (H.prim _) fun t => ?_))
          repeat' np1 H
        · exact np_bindAt (np_predefOrRef H ha s hs rfl) fun t => np_suffix H _ _

theorem np_prim (K : C.Keeps) (H : Nps r) (F : Fl) : Np (prim C r F) := by
  refine ⟨fun s hs => ?_⟩
  unfold prim
  refine np_peekAt ?_
  have np_at : ∀ {m : M (Nd X)}, Np m → NpAt m s := fun h => h.go s hs
  have hpar : Np (do let t ← paren C r; let t ← r.arr t; return unwrap t) :=
    np_bind (np_paren K H) fun t => np_bind (H.arr _) fun t => np_pure
  cases hk : (hd s).k with
  | parenL => exact np_at hpar
  | lt => exact np_at hpar
  | name v => exact np_primName K H F s hs (.inl ⟨v, hk⟩)
  | void => exact np_primName K H F s hs (.inr hk)
  | const_ => exact absurd hk (hd_ne hs)
  | null => exact np_at (np_next np_pure)
  | tru => exact np_at (np_next np_pure)
  | fls => exact np_at (np_next np_pure)
  | str v => exact np_at (np_next np_pure)
  | num v => exact np_at (np_next np_pure)
  | braceL => exact np_at (np_call (fun s x r h => K s x r (.inl ⟨_, h⟩)) fun x => np_suffix H _ _)
  | brackL => exact np_at (np_next (np_bind (H.mems _ _) fun l => np_suffix H _ _))
  | typeof_ => exact np_at (np_next (np_bind (H.typ _) fun l => np_suffix H _ _))
  | this_ =>
    refine np_at (np_next (np_peek fun b _ => np_ite (fun _ => ?_) fun _ => np_suffix H _ _))
    exact np_bind (np_predicate H _ _ _) fun t => np_suffix H _ _
  | import_ => exact np_at (np_import H)
  | sub =>
    refine np_at (np_next (np_peek fun b _ => ?_))
    repeat' np1 H
  | tpl => exact np_at (np_call (fun s x r h => K s x r (.inr (.inl h))) fun x => np_pure)
  | _ => exact np_at np_fail

theorem np_typ (K : C.Keeps) (H : Nps r) (F : Fl) : Np (typ C r F) := by
  unfold typ
  exact np_peek fun a _ => np_ite (fun _ => np_construct K H _) fun _ => H.uni _ _ _ _

theorem nps (K : C.Keeps) (n : Nat) : Nps (run C n) := by
  induction n with
  | zero => constructor <;> intros <;> exact np_fuel
  | succ n H =>
    exact
      { typ := np_typ K H
        uni := np_uni H
        loop := np_loop H
        prim := np_prim K H
        arr := np_arr H
        args := np_args H
        mem := np_mem H
        mems := np_mems H
        params := np_params K H }

end Mole.Parser.TsType
