import Verif.Parser.ProgPlaceS

/-! # When the places are those of the language (for C77) -/

namespace Mole.Parser.Prog

/-- The place is as in the language, but for try statements. -/
structure Rel (b nr : Bool) (p : Place) (w : Around) : Prop where
  gen : p.gen = w.gen
  async : p.async = w.async
  fn : nr = false → p.fn = w.fn
  loop : p.loop = w.loop
  sw : b = true → p.sw = w.sw
  try_ : b = true → p.try_ = false
  top : p.top = true → w.top = true

theorem Rel.inner {b nr : Bool} {p : Place} {w : Around} (h : Rel b nr p w) : Rel b nr p.inner w :=
  ⟨h.gen, h.async, h.fn, h.loop, fun hb => by simp [Place.inner, h.sw hb, h.try_ hb], fun _ => rfl, nofun⟩
theorem Rel.inner' {b nr : Bool} {p : Place} {w : Around} (h : Rel b nr p w) : Rel b nr p.inner w.inner :=
  ⟨h.gen, h.async, h.fn, h.loop, h.inner.sw, fun _ => rfl, nofun⟩
theorem Rel.inLoop {b nr : Bool} {p : Place} {w : Around} (h : Rel b nr p w) : Rel b nr p.inLoop w.inLoop :=
  ⟨h.gen, h.async, h.fn, rfl, h.inner.sw, fun _ => rfl, nofun⟩
theorem Rel.inSw {b nr : Bool} {p : Place} {w : Around} (h : Rel b nr p w) : Rel b nr { p.inner with sw := true } { w.inner with sw := true } :=
  ⟨h.gen, h.async, h.fn, h.loop, fun _ => rfl, fun _ => rfl, nofun⟩
theorem Rel.inFn {b nr : Bool} (g a : Bool) : Rel b nr (.inFn g a) (.inFn g a) := ⟨rfl, rfl, fun _ => rfl, rfl, fun _ => rfl, fun _ => rfl, nofun⟩
theorem Rel.static {b : Bool} : Rel b true (.inFn false false) {} := ⟨rfl, rfl, nofun, rfl, fun _ => rfl, fun _ => rfl, nofun⟩
theorem Rel.inTry {nr : Bool} {p : Place} {w : Around} (h : Rel false nr p w) : Rel false nr { p.inner with try_ := true } w.inner :=
  ⟨h.gen, h.async, h.fn, h.loop, nofun, nofun, nofun⟩

/-- A node that is not exceptional; `nr`: it is no return statement. -/
def Ord1 (b nr : Bool) (n : Node) : Prop := (¬SpecialKey n ∧ ¬StaticReturn n) ∧ (b = true → ¬IsTry n) ∧ (nr = true → ¬IsRet n)

/-- No node is exceptional. -/
def Ordinary (b nr : Bool) (l : List Node) : Prop := ∀ n ∈ l, Ord1 b nr n

theorem ord_cons {b nr : Bool} {n : Node} {l : List Node} : Ordinary b nr (n :: l) ↔ Ord1 b nr n ∧ Ordinary b nr l := by
  simp [Ordinary]
theorem ord_append {b nr : Bool} {l m : List Node} : Ordinary b nr (l ++ m) ↔ Ordinary b nr l ∧ Ordinary b nr m := by
  constructor
  · exact fun h => ⟨fun n hn => h n (by simp [hn]), fun n hn => h n (by simp [hn])⟩
  · rintro ⟨h1, h2⟩ n hn
    rcases List.mem_append.mp hn with hn | hn
    · exact h1 n hn
    · exact h2 n hn

/-- What is in a static block is legal, if nothing is a return statement. -/
def StaticOk (b : Bool) : Prop := ∀ l, Ordinary b true (nodesL l) → placedL (.inFn false false) l = true → legalL b {} l = true

theorem placed_legal_of (b nr : Bool) (hs : nr = false → StaticOk b) :
    (∀ p n, ∀ w, Rel b nr p w → Ordinary b nr (nodes n) → placed p n = true → legal b w n = true) ∧
    (∀ p l, ∀ w, Rel b nr p w → Ordinary b nr (nodesL l) → placedL p l = true → legalL b w l = true) := by
  apply placed.mutual_induct
    (motive_1 := fun p n => ∀ w, Rel b nr p w → Ordinary b nr (nodes n) → placed p n = true → legal b w n = true)
    (motive_2 := fun p l => ∀ w, Rel b nr p w → Ordinary b nr (nodesL l) → placedL p l = true → legalL b w l = true)
  all_goals intros
  all_goals try (simp_all [placed, placedL, legal, legalL, nodes, nodesL, ord_cons, ord_append]; done)
  all_goals
    rename_i w hR hO hP
    have h1 := hR.inner
    have h1' := hR.inner'
    have h4 := hR.top
    have h2 := hR.inLoop
    have h3 := hR.inSw
    have g1 := hR.gen
    have g2 := hR.async
    have g3 := hR.fn
    have g4 := hR.loop
    simp only [placed, placedL, nodes, nodesL, ord_cons, ord_append, Bool.and_eq_true] at hP hO
  all_goals try (simp_all [legal, legalL, Rel.inFn]; done)
  · rename_i ih
    obtain ⟨⟨_, _, hn⟩, o1⟩ := hO
    cases nr with
    | true => exact absurd trivial (hn rfl)
    | false => simp [legal, ← g3 rfl, hP.1, ih w hR o1 hP.2]
  · cases b with
    | false => rfl
    | true =>
      have := hR.sw rfl
      simp_all [legal]
  · rename_i ih3 ih2 ih1
    obtain ⟨⟨⟨⟨_, hb, _⟩, _, o1⟩, o2⟩, o3⟩ := hO
    obtain ⟨⟨p1, p2⟩, p3⟩ := hP
    cases b with
    | true => exact absurd trivial (hb rfl)
    | false => simp [legal, ih3 w.inner hR.inTry o1 p1, ih2 w hR o2 p2, ih1 w hR o3 p3]
  · rename_i p i a g c k l e ih3 ih2 ih1
    obtain ⟨⟨⟨⟨⟨hk, _⟩, _⟩, o1⟩, o2⟩, o3⟩ := hO
    obtain ⟨⟨p1, p2⟩, p3⟩ := hP
    have : legal b w k = true := by
      by_cases hi : i ≠ 0 ∨ a = true ∨ g = true
      · cases k with
        | leaf t => rfl
        | _ => exact absurd ⟨hi, nofun⟩ hk
      · have : p.key i g a = p := by simp at hi; simp [Place.key, hi]
        rw [this] at ih3 p1
        exact ih3 w hR o1 p1
    simp [legal, this, ih2 _ (Rel.inFn g a) o2 p2, ih1 _ (Rel.inFn g a) o3 p3]
  · rename_i ih
    obtain ⟨⟨⟨_, hk⟩, _⟩, o1⟩ := hO
    cases nr with
    | true => exact ih {} Rel.static o1 hP
    | false => exact hs rfl _ (fun n hn => ⟨(o1 n hn).1, (o1 n hn).2.1, fun _ h => hk ⟨n, hn, h⟩⟩) hP

theorem placed_legal (b : Bool) {p : Place} {l : List Node} {w : Around} (hR : Rel b false p w) (hO : Ordinary b false (nodesL l))
    (h : placedL p l = true) : legalL b w l = true :=
  (placed_legal_of b false (fun _ _ h1 h2 => (placed_legal_of b true nofun).2 _ _ _ Rel.static h1 h2)).2 _ _ _ hR hO h

end Mole.Parser.Prog
