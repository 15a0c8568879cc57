import Verif.Parser.ClassBodySpec

/-!
# Lemmas on class bodies
-/
namespace Mole.Parser.Cls

/-- Adjacent declarations of one private name form pairs. -/
def Chain : Option Elem → List Elem → Prop
  | _, [] => True
  | none, e :: es => Chain (some e) es
  | some p, e :: es => Pair p e ∧ Chain (some e) es

theorem mayPair_iff (a b : Elem) : mayPair a b = true ↔ Pair b a := by
  cases a with
  | method s k key => cases b with
    | method s' k' key' =>
      cases k <;> cases k' <;> simp [mayPair, Pair, Kind.accessor] <;> exact eq_comm
    | field s' k' => cases k <;> simp [mayPair, Pair]
    | block => cases k <;> simp [mayPair, Pair]
  | field s k => cases b with
    | method s' k' key' => cases k' <;> simp [mayPair, Pair]
    | field s' k' => simp [mayPair, Pair]
    | block => simp [mayPair, Pair]
  | block => cases b with
    | method s' k' key' => cases k' <;> simp [mayPair, Pair]
    | field s' k' => simp [mayPair, Pair]
    | block => simp [mayPair, Pair]

theorem isName_plain {k : Key} (h : k.Plain) {t : Txt} (ht : t.Special) :
    isName k t = true ↔ k.propName = some t := by
  cases t with
  | other n => exact absurd ht (by simp [Txt.Special])
  | constructor =>
    cases k with
    | ident x esc => cases x <;> simp_all [isName, Key.propName, Key.Plain, Txt.Special]
    | str x => simp [isName, Key.propName]
    | num => simp [isName, Key.propName]
    | pvt x esc => cases x <;> simp_all [isName, Key.propName, Key.Plain, Txt.Special]
    | computed e =>
      cases e with
      | ref x esc => cases x <;> simp_all [isName, Key.propName, Key.Plain, Txt.Special]
      | str x => cases x <;> simp_all [isName, Key.propName, Key.Plain, Txt.Special]
      | other => simp [isName, Key.propName]
  | prototype =>
    cases k with
    | ident x esc => cases x <;> simp_all [isName, Key.propName, Key.Plain, Txt.Special]
    | str x => simp [isName, Key.propName]
    | num => simp [isName, Key.propName]
    | pvt x esc => cases x <;> simp_all [isName, Key.propName, Key.Plain, Txt.Special]
    | computed e =>
      cases e with
      | ref x esc => cases x <;> simp_all [isName, Key.propName, Key.Plain, Txt.Special]
      | str x => cases x <;> simp_all [isName, Key.propName, Key.Plain, Txt.Special]
      | other => simp [isName, Key.propName]

theorem isName_computed {k : Key} (h : k.Plain) (hc : k.isComputed = true) {t : Txt} (ht : t.Special) :
    isName k t = false := by
  cases hn : isName k t with
  | false => rfl
  | true =>
    have := (isName_plain h ht).mp hn
    cases k <;> simp [Key.isComputed, Key.propName] at hc this

theorem pvt_plain {e : Elem} (h : e.Plain) {t : Txt} (hp : e.privateName = some t) : ¬t.Special := by
  cases e with
  | method s k key => cases key <;> simp_all [Elem.Plain, Elem.privateName, Key.Plain]
  | field s key => cases key <;> simp_all [Elem.Plain, Elem.privateName, Key.Plain]
  | block => simp [Elem.privateName] at hp

/-- The checks of `method` and `field` on one element. -/
def nameOk (e : Elem) : Bool :=
  match e with
  | .method st k key => methodName true st k key
  | .field st key => fieldName st key
  | .block => true

/-- The element counts as a constructor. -/
def countsCtor (e : Elem) : Bool :=
  match e with
  | .method _ _ key => isName key .constructor
  | _ => false

theorem nameOk_iff {e : Elem} (h : e.Plain) : nameOk e = true ↔ ElemOk e := by
  have hpv : e.privateName ≠ some .constructor := fun hp => pvt_plain h hp (by simp [Txt.Special])
  cases e with
  | block => simp [nameOk, ElemOk, Elem.privateName]
  | field s key =>
    have hk : key.Plain := h
    have hc := isName_plain hk (t := .constructor) (by simp [Txt.Special])
    have hp := isName_plain hk (t := .prototype) (by simp [Txt.Special])
    cases s <;> simp [nameOk, ElemOk, fieldName, hpv, ← hc, ← hp]
  | method s k key =>
    have hk : key.Plain := h.1
    have hc := isName_plain hk (t := .constructor) (by simp [Txt.Special])
    have hp := isName_plain hk (t := .prototype) (by simp [Txt.Special])
    have hcomp : isName key .constructor = true → key.isComputed = false := by
      intro hn
      cases hk' : key.isComputed with
      | false => rfl
      | true => rw [isName_computed hk hk' (by simp [Txt.Special])] at hn; exact nomatch hn
    cases s with
    | false =>
      simp only [nameOk, ElemOk, methodName, ne_eq, hpv, not_false_eq_true, true_and, ← hc]
      cases hn : isName key .constructor with
      | false => simp
      | true => simp [hcomp hn]
    | true =>
      have hno : isName key .constructor = false := by
        cases hn : isName key .constructor with
        | false => rfl
        | true => exact absurd (hc.mp hn) (h.2 rfl)
      simp [nameOk, ElemOk, methodName, hno, hpv, ← hp]

theorem countsCtor_iff {e : Elem} (h : e.Plain) : countsCtor e = true ↔ e.IsConstructor := by
  cases e with
  | block => simp [countsCtor, Elem.IsConstructor]
  | field s key => simp [countsCtor, Elem.IsConstructor]
  | method s k key =>
    have hc := isName_plain (h.1 : key.Plain) (t := .constructor) (by simp [Txt.Special])
    cases s with
    | false => simpa [countsCtor, Elem.IsConstructor] using hc
    | true =>
      simp only [countsCtor, Elem.IsConstructor, iff_false]
      exact fun hn => h.2 rfl (hc.mp hn)

theorem addElem_eq (s : Seen) (e : Elem) :
    addElem s e =
      if nameOk e = false then none
      else if countsCtor e = true ∧ s.hasCtor = true then none
      else match e.privateName with
        | some t => match s.pvt.lookup t with
          | some prev => if mayPair e prev then some ⟨s.hasCtor || countsCtor e, (t, e) :: s.pvt⟩ else none
          | none => some ⟨s.hasCtor || countsCtor e, (t, e) :: s.pvt⟩
        | none => some ⟨s.hasCtor || countsCtor e, s.pvt⟩ := by
  cases e with
  | block => simp [addElem, nameOk, countsCtor, Elem.privateName, Elem.key]
  | field st key =>
    cases key <;> simp [addElem, nameOk, countsCtor, Elem.privateName, Elem.key] <;> congr
  | method st k key =>
    cases key <;> simp [addElem, nameOk, countsCtor, Elem.privateName, Elem.key] <;> congr

theorem declaring_cons (t : Txt) (e : Elem) (es : List Elem) :
    declaring t (e :: es) = if e.privateName = some t then e :: declaring t es else declaring t es := by
  simp only [declaring, List.filter_cons]
  split <;> simp_all

/-- What the loop decides, from any point on. -/
theorem classBody_iff (es : List Elem) (s : Seen) :
    classBody s es = true ↔
      (∀ e ∈ es, nameOk e = true) ∧
      (es.filter countsCtor).length ≤ (if s.hasCtor then 0 else 1) ∧
      ∀ t, Chain (s.pvt.lookup t) (declaring t es) := by
  induction es generalizing s with
  | nil => simp [classBody, declaring, Chain]
  | cons e es ih =>
    rw [classBody, addElem_eq]
    cases hn : nameOk e with
    | false => simp [hn]
    | true =>
      by_cases hcc : countsCtor e = true ∧ s.hasCtor = true
      · simp [hn, hcc]
      · have hlen : ((e :: es).filter countsCtor).length ≤ (if s.hasCtor then 0 else 1) ↔
            (es.filter countsCtor).length ≤ (if (s.hasCtor || countsCtor e) then 0 else 1) := by
          cases hh : s.hasCtor <;> cases hc : countsCtor e <;> simp_all
        simp only [Bool.true_eq_false, if_false, hcc, List.forall_mem_cons, hn, true_and, hlen]
        cases hp : e.privateName with
        | none =>
          simp only [ih, declaring_cons, hp, reduceCtorEq, if_false]
        | some t =>
          have key : (∀ t', Chain (s.pvt.lookup t') (declaring t' (e :: es))) ↔
              (match s.pvt.lookup t with | some prev => Pair prev e | none => True) ∧
              ∀ t', Chain (((t, e) :: s.pvt).lookup t') (declaring t' es) := by
            constructor
            · intro h
              constructor
              · have := h t
                rw [declaring_cons, if_pos hp] at this
                cases hl : s.pvt.lookup t with
                | none => trivial
                | some prev => rw [hl] at this; exact this.1
              · intro t'
                have := h t'
                rw [declaring_cons] at this
                by_cases ht : t' = t
                · subst ht
                  rw [if_pos hp] at this
                  simp only [List.lookup, beq_self_eq_true]
                  cases hl : s.pvt.lookup t' with
                  | none => rw [hl] at this; exact this
                  | some prev => rw [hl] at this; exact this.2
                · have hne : e.privateName ≠ some t' := by
                    rw [hp]; simpa using fun h => ht h.symm
                  rw [if_neg hne] at this
                  have hb : (t' == t) = false := by simpa using ht
                  simpa only [List.lookup, hb] using this
            · rintro ⟨h1, h2⟩ t'
              have := h2 t'
              rw [declaring_cons]
              by_cases ht : t' = t
              · subst ht
                rw [if_pos hp]
                simp only [List.lookup, beq_self_eq_true] at this
                cases hl : s.pvt.lookup t' with
                | none => exact this
                | some prev => rw [hl] at h1; exact ⟨h1, this⟩
              · have hne : e.privateName ≠ some t' := by
                  rw [hp]; simpa using fun h => ht h.symm
                rw [if_neg hne]
                have hb : (t' == t) = false := by simpa using ht
                simpa only [List.lookup, hb] using this
          rw [key]
          cases hl : s.pvt.lookup t with
          | none => simp only [hl, ih, true_and]
          | some prev =>
            cases hm : mayPair e prev with
            | true =>
              have := (mayPair_iff e prev).mp hm
              simp only [hl, hm, ih, this, true_and, if_true]
            | false =>
              have : ¬Pair prev e := fun h => by rw [(mayPair_iff e prev).mpr h] at hm; exact nomatch hm
              simp [hl, hm, this]

end Mole.Parser.Cls
