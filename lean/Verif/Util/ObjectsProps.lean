import Verif.Util.Objects
/-!
# Properties C41–C43: merging, flattening, slice and map helpers
-/
namespace Mole.Util

/-! ## Specification -/

mutual
/-- Every map has each key once, as Go maps do. -/
def Val.wf : Val → Prop
  | .obj o => o.wf
  | .arr a => a.wf
  | _ => True
def Arr.wf : Arr → Prop
  | .nil => True
  | .cons v r => v.wf ∧ r.wf
def Obj.wf : Obj → Prop
  | .nil => True
  | .cons k v r => k ∉ r.keys ∧ v.wf ∧ r.wf
end

/-- A value that ends a path: neither absent (nil) nor a map. -/
def Val.ends : Val → Prop
  | .atom _ | .arr _ => True
  | _ => False

def Val.isObj : Val → Prop
  | .obj _ => True
  | _ => False

/-! ## C41 -/

theorem lookup_assign (o : Obj) (k : Key) (v : Val) (k' : Key) :
    (o.assign k v).lookup k' = if k' = k then some v else o.lookup k' := by
  fun_induction Obj.assign k v o with
  | case1 => simp only [Obj.lookup, eq_comm]
  | case2 => simp only [Obj.lookup]; grind
  | case3 k1 v' r hk ih => simp only [Obj.lookup, ih]; grind

theorem lookup_keys (o : Obj) (k : Key) : (o.lookup k).isSome ↔ k ∈ o.keys := by
  fun_induction Obj.lookup k o <;> simp_all [Obj.keys]
  grind

theorem wf_lookup {o : Obj} (h : o.wf) {k : Key} {v : Val} (hl : o.lookup k = some v) : v.wf := by
  fun_induction Obj.lookup k o with
  | case1 => cases hl
  | case2 v' r => cases hl; exact h.2.1
  | case3 k' v' r hne ih => exact ih h.2.2 hl

/-- What a key holds after merging, from what it held in both maps. -/
def combine : Option Val → Option Val → Option Val
  | d, none => d
  | d, some .nil => d
  | some (.obj a), some (.obj b) => some (.obj (mergeMap a b))
  | _, some v => some v

theorem mergeMap_lookup (s : Obj) : ∀ (d : Obj), s.wf → ∀ k,
    (mergeMap d s).lookup k = combine (d.lookup k) (s.lookup k) := by
  intro d hs k
  match s with
  | .nil => simp [mergeMap, Obj.lookup, combine]
  | .cons k1 v rest =>
    obtain ⟨hnk, _, hrest⟩ := hs
    have hnone : rest.lookup k1 = none := by
      cases h : rest.lookup k1 with
      | none => rfl
      | some _ => exact absurd ((lookup_keys rest k1).mp (by simp [h])) hnk
    have ih := mergeMap_lookup rest
    rw [mergeMap, ih _ hrest k]
    simp only [Obj.lookup]
    by_cases hk : k1 = k
    · subst hk
      simp only [if_true, hnone]
      cases v with
      | nil => simp only [mergeEntry, combine]
      | atom n => simp only [mergeEntry, lookup_assign, if_true, combine]
      | arr a => simp only [mergeEntry, lookup_assign, if_true, combine]
      | obj svm =>
        simp only [mergeEntry]
        cases hd : d.lookup k1 with
        | none => simp only [lookup_assign, if_true, combine]
        | some w => cases w <;> simp only [lookup_assign, if_true, combine]
    · simp only [if_neg hk]
      congr 1
      have hk' : ¬ k = k1 := fun e => hk e.symm
      cases v with
      | nil => simp only [mergeEntry]
      | atom n => simp only [mergeEntry, lookup_assign, if_neg hk']
      | arr a => simp only [mergeEntry, lookup_assign, if_neg hk']
      | obj svm =>
        simp only [mergeEntry]
        split <;> simp only [lookup_assign, if_neg hk']

theorem getByPath_cons (o : Obj) (k : Key) (p : List Key) :
    getByPath o (k :: p) = match o.lookup k with
      | some (.obj vo) => if p = [] then .obj vo else getByPath vo p
      | some v => if p = [] then v else .nil
      | none => .nil := by
  cases p with
  | nil =>
    simp only [getByPath]
    cases o.lookup k with
    | none => rfl
    | some v => cases v <;> simp
  | cons k' p =>
    rw [getByPath]
    cases o.lookup k with
    | none => rfl
    | some v => cases v <;> simp

theorem getByPath_isObj_nil (o : Obj) : getByPath o [] = .obj o := rfl

theorem getByPath_below (o : Obj) (q r : List Key) (hr : r ≠ []) (h : (getByPath o q).ends) :
    getByPath o (q ++ r) = .nil := by
  induction q generalizing o with
  | nil => simp [getByPath, Val.ends] at h
  | cons k q ih =>
    rw [List.cons_append, getByPath_cons]
    rw [getByPath_cons] at h
    cases hk : o.lookup k with
    | none => rfl
    | some v =>
      rw [hk] at h
      cases v with
      | obj vo =>
        simp only at h ⊢
        split at h
        · simp [Val.ends] at h
        · rw [if_neg (by simp [hr])]
          exact ih vo h
      | _ => simp [hr]

/-- **C41.** `MergeMap(dst, src)` is the right-biased deep union.  At every path: where `src`
has a non-nil value that is not a map, that value; below such a value, nothing; where `src`
has nil or nothing (and not below such a value), what `dst` had; where both have maps, a map;
where only `src` has a map, `src`'s value. -/
theorem mergeMap_getByPath (p : List Key) : ∀ (d s : Obj), s.wf →
    ((getByPath s p).ends → getByPath (mergeMap d s) p = getByPath s p) ∧
    (∀ q r, p = q ++ r → r ≠ [] → (getByPath s q).ends → getByPath (mergeMap d s) p = .nil) ∧
    (getByPath s p = .nil → (∀ q r, p = q ++ r → ¬ (getByPath s q).ends) →
      getByPath (mergeMap d s) p = getByPath d p) ∧
    ((getByPath s p).isObj → (getByPath d p).isObj → (getByPath (mergeMap d s) p).isObj) ∧
    ((getByPath s p).isObj → ¬ (getByPath d p).isObj →
      getByPath (mergeMap d s) p = getByPath s p) := by
  induction p with
  | nil =>
    intro d s _
    refine ⟨?_, ?_, ?_, ?_, ?_⟩ <;> simp [getByPath, Val.ends, Val.isObj]
  | cons k p ih =>
    intro d s hs
    have hl := mergeMap_lookup s d hs k
    have hpre : ∀ (P : Val → Prop) (vo : Obj), s.lookup k = some (.obj vo) → ∀ q r, p = q ++ r →
        P (getByPath vo q) → ¬ P (.obj vo) → P (getByPath s (k :: q)) := by
      intro P vo hvo q r _ hq hn
      rw [getByPath_cons, hvo]
      simp only
      split
      · rename_i h; subst h; exact absurd hq hn
      · exact hq
    simp only [getByPath_cons, hl]
    cases hsk : s.lookup k with
    | none =>
      simp only [combine]
      refine ⟨by simp [Val.ends], ?_, by simp, by simp [Val.isObj], by simp [Val.isObj]⟩
      intro q r hq hr he
      cases q with
      | nil => simp [getByPath, Val.ends] at he
      | cons k' q =>
        obtain ⟨rfl, rfl⟩ : k = k' ∧ p = q ++ r := by simpa using hq
        rw [getByPath_cons, hsk] at he
        simp [Val.ends] at he
    | some v =>
      cases v with
      | nil =>
        simp only [combine]
        refine ⟨by simp [Val.ends], ?_, by simp, by simp [Val.isObj], by simp [Val.isObj]⟩
        intro q r hq hr he
        cases q with
        | nil => simp [getByPath, Val.ends] at he
        | cons k' q =>
          obtain ⟨rfl, rfl⟩ : k = k' ∧ p = q ++ r := by simpa using hq
          rw [getByPath_cons, hsk] at he
          simp [Val.ends] at he
      | atom n =>
        simp only [combine]
        refine ⟨by simp, ?_, ?_, ?_, by simp⟩
        · intro q r hq hr he
          cases q with
          | nil => simp [getByPath, Val.ends] at he
          | cons k' q =>
            obtain ⟨rfl, rfl⟩ : k = k' ∧ p = q ++ r := by simpa using hq
            simp [hr]
        · intro _ h
          exact absurd (by rw [getByPath_cons, hsk]; simp [Val.ends]) (h [k] p rfl)
        · intro h
          split at h <;> simp [Val.isObj] at h
      | arr a =>
        simp only [combine]
        refine ⟨by simp, ?_, ?_, ?_, by simp⟩
        · intro q r hq hr he
          cases q with
          | nil => simp [getByPath, Val.ends] at he
          | cons k' q =>
            obtain ⟨rfl, rfl⟩ : k = k' ∧ p = q ++ r := by simpa using hq
            simp [hr]
        · intro _ h
          exact absurd (by rw [getByPath_cons, hsk]; simp [Val.ends]) (h [k] p rfl)
        · intro h
          split at h <;> simp [Val.isObj] at h
      | obj so =>
        have hso : so.wf := wf_lookup hs hsk
        -- the case where dst has no map at k
        have other : ∀ dv : Option Val, (∀ o, dv ≠ some (.obj o)) →
            combine dv (some (.obj so)) = some (.obj so) := by
          intro dv h
          cases dv with
          | none => rfl
          | some w => cases w <;> first | rfl | exact absurd rfl (h _)
        cases hdk : d.lookup k with
        | some w =>
          cases w with
          | obj dob =>
            simp only [combine]
            obtain ⟨i1, i2, i3, i4, i5⟩ := ih dob so hso
            by_cases hp : p = []
            · subst hp
              simp only [if_true]
              refine ⟨by simp [Val.ends], ?_, by simp, by simp [Val.isObj], by simp [Val.isObj]⟩
              intro q r hq hr he
              cases q with
              | nil => simp [getByPath, Val.ends] at he
              | cons k' q =>
                simp at hq
                exact absurd hq.2.2 hr
            · simp only [if_neg hp]
              refine ⟨i1, ?_, ?_, i4, i5⟩
              · intro q r hq hr he
                cases q with
                | nil => simp [getByPath, Val.ends] at he
                | cons k' q =>
                  obtain ⟨rfl, rfl⟩ : k = k' ∧ p = q ++ r := by simpa using hq
                  rw [getByPath_cons, hsk] at he
                  simp only at he
                  split at he
                  · simp [Val.ends] at he
                  · exact i2 q r rfl hr he
              · intro h1 h2
                apply i3 h1
                intro q r hq he
                exact h2 (k :: q) r (by simp [hq])
                  (hpre Val.ends so hsk q r hq he (by simp [Val.ends]))
          | nil | atom _ | arr _ =>
            rw [other _ (by simp)]
            simp only
            refine ⟨by simp, ?_, ?_, ?_, by simp⟩
            · intro q r hq hr he
              cases q with
              | nil => simp [getByPath, Val.ends] at he
              | cons k' q =>
                obtain ⟨rfl, rfl⟩ : k = k' ∧ p = q ++ r := by simpa using hq
                rw [getByPath_cons, hsk] at he
                simp only at he
                split at he
                · simp [Val.ends] at he
                · simp only [List.append_eq_nil_iff, hr, and_false, if_false]
                  exact getByPath_below so q r hr he
            · intro h1 h2
              by_cases hp : p = []
              · subst hp; simp at h1
              · simp only [if_neg hp] at h1 ⊢
                exact h1
            · intro _ h
              split at h <;> simp [Val.isObj] at h
        | none =>
          rw [other _ (by simp)]
          simp only
          refine ⟨by simp, ?_, ?_, ?_, by simp⟩
          · intro q r hq hr he
            cases q with
            | nil => simp [getByPath, Val.ends] at he
            | cons k' q =>
              obtain ⟨rfl, rfl⟩ : k = k' ∧ p = q ++ r := by simpa using hq
              rw [getByPath_cons, hsk] at he
              simp only at he
              split at he
              · simp [Val.ends] at he
              · simp only [List.append_eq_nil_iff, hr, and_false, if_false]
                exact getByPath_below so q r hr he
          · intro h1 h2
            by_cases hp : p = []
            · subst hp; simp at h1
            · simp only [if_neg hp] at h1
              simp only [if_neg hp]
              exact h1
          · intro _ h
            simp [Val.isObj] at h

/-- A merge with a scalar, a nested merge, a nil and a replaced map. -/
example :
    let d : Obj := .cons ['a'] (.obj (.cons ['x'] (.atom 1) (.cons ['y'] (.atom 2) .nil)))
      (.cons ['b'] (.atom 3) .nil)
    let s : Obj := .cons ['a'] (.obj (.cons ['x'] (.atom 7) .nil)) (.cons ['b'] .nil
      (.cons ['c'] (.obj .nil) .nil))
    s.wf ∧ getByPath (mergeMap d s) [['a'], ['x']] = .atom 7 ∧
    getByPath (mergeMap d s) [['a'], ['y']] = .atom 2 ∧
    getByPath (mergeMap d s) [['b']] = .atom 3 ∧ getByPath (mergeMap d s) [['c']] = .obj .nil := by
  refine ⟨by simp [Obj.wf, Val.wf, Obj.keys], ?_⟩
  decide

/-- **C41.** Merging several maps equals merging them one after the other. -/
theorem mergeMaps_append (d : Obj) (s t : List Obj) :
    mergeMaps d (s ++ t) = mergeMaps (mergeMaps d s) t := by
  simp [mergeMaps]

/-! ## C42 -/

def Arr.get : Arr → Nat → Option Val
  | .nil, _ => none
  | .cons v _, 0 => some v
  | .cons _ r, i + 1 => r.get i

/-- `Leaf v p w`: following the path `p` of map keys and decimal slice indices from `v` leads
to `w`, which is neither a map nor a slice. -/
inductive Leaf : Val → List Key → Val → Prop where
  | here {v} : v.isLeaf = true → Leaf v [] v
  | obj {o k v p w} : o.lookup k = some v → Leaf v p w → Leaf (.obj o) (k :: p) w
  | arr {a i v p w} : a.get i = some v → Leaf v p w → Leaf (.arr a) (itoa i :: p) w

mutual
/-- No key of any map contains a dot. -/
def Val.dotFree : Val → Prop
  | .obj o => o.dotFree
  | .arr a => a.dotFree
  | _ => True
def Arr.dotFree : Arr → Prop
  | .nil => True
  | .cons v r => v.dotFree ∧ r.dotFree
def Obj.dotFree : Obj → Prop
  | .nil => True
  | .cons k v r => '.' ∉ k ∧ v.dotFree ∧ r.dotFree
end

theorem itoa_inj {m n : Nat} (h : itoa m = itoa n) : m = n := by
  have hm := Nat.ofDigitChars_toDigits (b := 10) (n := m) (by decide) (by decide)
  have hn := Nat.ofDigitChars_toDigits (b := 10) (n := n) (by decide) (by decide)
  unfold itoa at h
  rw [h] at hm
  exact hm.symm.trans hn

theorem itoa_dotFree (n : Nat) : '.' ∉ itoa n := by
  intro h
  have := Nat.isDigit_of_mem_toDigits (b := 10) (by decide) (by decide) h
  revert this; decide

theorem arr_get_wf {a : Arr} {i : Nat} {v : Val} (h : a.get i = some v) :
    (a.wf → v.wf) ∧ (a.dotFree → v.dotFree) := by
  fun_induction Arr.get a i with
  | case1 => cases h
  | case2 v' r => cases h; exact ⟨fun h => h.1, fun h => h.1⟩
  | case3 v' r i ih => exact ⟨fun hw => (ih h).1 hw.2, fun hw => (ih h).2 hw.2⟩

theorem lookup_dotFree {o : Obj} {k : Key} {v : Val} (hl : o.lookup k = some v) (h : o.dotFree) :
    '.' ∉ k ∧ v.dotFree := by
  fun_induction Obj.lookup k o with
  | case1 => cases hl
  | case2 v' r => cases hl; exact ⟨h.1, h.2.1⟩
  | case3 k' v' r hne ih => exact ih hl h.2.2

theorem leaf_dotFree {v : Val} {p : List Key} {w : Val} (h : Leaf v p w) (hd : v.dotFree) :
    ∀ k ∈ p, '.' ∉ k := by
  induction h with
  | here => simp
  | obj hl _ ih =>
    obtain ⟨a, b⟩ := lookup_dotFree hl hd
    intro k hk
    rcases List.mem_cons.mp hk with rfl | hk
    · exact a
    · exact ih b k hk
  | arr hl _ ih =>
    intro k hk
    rcases List.mem_cons.mp hk with rfl | hk
    · exact itoa_dotFree _
    · exact ih ((arr_get_wf hl).2 hd) k hk

theorem leaf_unique {v : Val} {p : List Key} {w w' : Val} (h : Leaf v p w) (h' : Leaf v p w') :
    w = w' := by
  induction h with
  | here hl =>
    cases h' with
    | here => rfl
  | obj hl _ ih =>
    cases h' with
    | obj hl' h' => rw [hl] at hl'; cases hl'; exact ih h'
  | @arr a i v p w hl _ ih =>
    generalize hk : itoa i = k at h'
    cases h' with
    | arr hl' h' =>
      have := itoa_inj hk
      subst this
      rw [hl] at hl'; cases hl'; exact ih h'

theorem split_dot {k k' : Key} {r r' : List Char} (h : '.' ∉ k) (h' : '.' ∉ k')
    (e : k ++ '.' :: r = k' ++ '.' :: r') : k = k' ∧ r = r' := by
  induction k generalizing k' with
  | nil =>
    cases k' with
    | nil => simpa using e
    | cons c k' => simp at e h'; exact absurd e.1 h'.1
  | cons c k ih =>
    cases k' with
    | nil => simp at e h; exact absurd e.1.symm h.1
    | cons c' k' =>
      simp only [List.cons_append, List.cons.injEq] at e
      obtain ⟨rfl, e⟩ := e
      obtain ⟨a, b⟩ := ih (by simp at h; exact h.2) (by simp at h'; exact h'.2) e
      exact ⟨by rw [a], b⟩

theorem join_inj {p q : List Key} (hp : p ≠ []) (hq : q ≠ []) (h1 : ∀ k ∈ p, '.' ∉ k)
    (h2 : ∀ k ∈ q, '.' ∉ k) (e : join p = join q) : p = q := by
  induction p generalizing q with
  | nil => exact absurd rfl hp
  | cons k p ih =>
    cases q with
    | nil => exact absurd rfl hq
    | cons k' q =>
      have hk : '.' ∉ k := h1 k (by simp)
      have hk' : '.' ∉ k' := h2 k' (by simp)
      cases p with
      | nil =>
        cases q with
        | nil => simp only [join] at e; rw [e]
        | cons k2 q => simp only [join] at e; exact absurd (by rw [e]; simp) hk
      | cons k1 p =>
        cases q with
        | nil => simp only [join] at e; exact absurd (by rw [← e]; simp) hk'
        | cons k2 q =>
          simp only [join] at e
          obtain ⟨rfl, e2⟩ := split_dot hk hk' e
          rw [ih (q := k2 :: q) (by simp) (by simp) (fun k h => h1 k (List.mem_cons_of_mem _ h))
            (fun k h => h2 k (List.mem_cons_of_mem _ h)) e2]

mutual
theorem walkVal_spec (v : Val) (hw : v.wf) (path q : List Key) (w : Val) (hl : w.isLeaf = true) :
    (q, w) ∈ walkVal path v ↔ ∃ p, q = path ++ p ∧ Leaf v p w := by
  match v with
  | .nil =>
    simp only [walkVal, List.mem_singleton, Prod.mk.injEq]
    constructor
    · rintro ⟨rfl, rfl⟩; exact ⟨[], by simp, .here rfl⟩
    · rintro ⟨p, rfl, h⟩; cases h; simp
  | .atom n =>
    simp only [walkVal, List.mem_singleton, Prod.mk.injEq]
    constructor
    · rintro ⟨rfl, rfl⟩; exact ⟨[], by simp, .here rfl⟩
    · rintro ⟨p, rfl, h⟩; cases h; simp
  | .obj o =>
    rw [walkVal, walkEntries_spec o hw path q w hl]
    constructor
    · rintro ⟨k, p, v, rfl, hk, h⟩; exact ⟨k :: p, rfl, .obj hk h⟩
    · rintro ⟨p, rfl, h⟩
      cases h with
      | here h => simp [Val.isLeaf] at h
      | obj hk h => exact ⟨_, _, _, rfl, hk, h⟩
  | .arr a =>
    rw [walkVal, walkElems_spec a hw path 0 q w hl]
    constructor
    · rintro ⟨i, p, v, rfl, hk, h⟩
      rw [Nat.zero_add]
      exact ⟨itoa i :: p, rfl, .arr hk h⟩
    · rintro ⟨p, rfl, h⟩
      cases h with
      | here h => simp [Val.isLeaf] at h
      | @arr _ i v p _ hk h => exact ⟨i, p, v, by rw [Nat.zero_add], hk, h⟩
theorem walkEntries_spec (o : Obj) (hw : o.wf) (path q : List Key) (w : Val)
    (hl : w.isLeaf = true) : (q, w) ∈ walkEntries path o ↔
      ∃ k p v, q = path ++ k :: p ∧ o.lookup k = some v ∧ Leaf v p w := by
  match o with
  | .nil => simp [walkEntries, Obj.lookup]
  | .cons k v r =>
    obtain ⟨hnk, hv, hr⟩ := hw
    simp only [walkEntries, List.mem_cons, List.mem_append, Prod.mk.injEq]
    rw [walkVal_spec v hv _ q w hl, walkEntries_spec r hr path q w hl]
    constructor
    · rintro (⟨rfl, rfl⟩ | ⟨p, rfl, h⟩ | ⟨k', p, v', rfl, hk, h⟩)
      · exact ⟨k, [], w, rfl, by simp [Obj.lookup], .here hl⟩
      · exact ⟨k, p, v, by simp, by simp [Obj.lookup], h⟩
      · refine ⟨k', p, v', rfl, ?_, h⟩
        have : k ≠ k' := by
          rintro rfl
          exact hnk ((lookup_keys r k).mp (by simp [hk]))
        simp [Obj.lookup, this, hk]
    · rintro ⟨k', p, v', rfl, hk, h⟩
      simp only [Obj.lookup] at hk
      split at hk
      · rename_i e; subst e; cases hk
        exact .inr (.inl ⟨p, by simp, h⟩)
      · exact .inr (.inr ⟨k', p, v', rfl, hk, h⟩)
theorem walkElems_spec (a : Arr) (hw : a.wf) (path : List Key) (n : Nat) (q : List Key) (w : Val)
    (hl : w.isLeaf = true) : (q, w) ∈ walkElems path n a ↔
      ∃ i p v, q = path ++ itoa (n + i) :: p ∧ a.get i = some v ∧ Leaf v p w := by
  match a with
  | .nil => simp [walkElems, Arr.get]
  | .cons v r =>
    obtain ⟨hv, hr⟩ := hw
    simp only [walkElems, List.mem_cons, List.mem_append, Prod.mk.injEq]
    rw [walkVal_spec v hv _ q w hl, walkElems_spec r hr path (n + 1) q w hl]
    constructor
    · rintro (⟨rfl, rfl⟩ | ⟨p, rfl, h⟩ | ⟨i, p, v', rfl, hk, h⟩)
      · exact ⟨0, [], w, rfl, rfl, .here hl⟩
      · exact ⟨0, p, v, by simp, rfl, h⟩
      · exact ⟨i + 1, p, v', by rw [show n + 1 + i = n + (i + 1) by omega], hk, h⟩
    · rintro ⟨i, p, v', rfl, hk, h⟩
      cases i with
      | zero => simp only [Arr.get] at hk; cases hk; exact .inr (.inl ⟨p, by simp, h⟩)
      | succ i =>
        exact .inr (.inr ⟨i, p, v', by rw [show n + 1 + i = n + (i + 1) by omega], hk, h⟩)
end

theorem foldl_writes (l : List (List Key × Val)) (f : Key → Option Val) (k : Key) (w : Val)
    (huniq : ∀ p v p' v', (p, v) ∈ l → (p', v') ∈ l → join p = join p' → v = v') :
    l.foldl (fun ret p => fun k => if k = join p.1 then some p.2 else ret k) f k = some w ↔
      (∃ p, (p, w) ∈ l ∧ join p = k) ∨ ((∀ p v, (p, v) ∈ l → join p ≠ k) ∧ f k = some w) := by
  induction l generalizing f with
  | nil => simp
  | cons a l ih =>
    obtain ⟨p, v⟩ := a
    rw [List.foldl_cons, ih _ (fun p v p' v' h h' => huniq p v p' v' (by simp [h]) (by simp [h']))]
    constructor
    · rintro (⟨q, hq, rfl⟩ | ⟨hn, hf⟩)
      · exact .inl ⟨q, by simp [hq], rfl⟩
      · simp only at hf
        split at hf
        · rename_i e; cases hf; exact .inl ⟨p, by simp, e.symm⟩
        · rename_i e
          refine .inr ⟨?_, hf⟩
          intro q u hu
          rcases List.mem_cons.mp hu with h | h
          · cases h; exact fun e' => e e'.symm
          · exact hn q u h
    · rintro (⟨q, hq, rfl⟩ | ⟨hn, hf⟩)
      · by_cases hex : ∃ q', (q', w) ∈ l ∧ join q' = join q
        · obtain ⟨q', h1, h2⟩ := hex; exact .inl ⟨q', h1, h2⟩
        · refine .inr ⟨?_, ?_⟩
          · intro q' u hu hj
            have : u = w := huniq q' u q w (by simp [hu]) hq hj
            subst this
            exact hex ⟨q', hu, hj⟩
          · rcases List.mem_cons.mp hq with h | h
            · cases h; simp
            · exact absurd ⟨q, h, rfl⟩ hex
      · refine .inr ⟨fun q u hu => hn q u (by simp [hu]), ?_⟩
        simp only
        rw [if_neg (fun e => hn p v (by simp) e.symm)]
        exact hf

/-- **C42.** Full statement: for every nested map, the entries of `FlattenMap` are exactly the
leaves under their dot-joined paths, and `GetByPath` finds them.  Proved for maps without dots
in their keys, for every iteration order of the maps (`flatten_collision_violated` is the
missing case); `GetByPath` for paths through maps only (`getByPath_slice_violated`). -/
theorem flattenMap_partial (m : Obj) (hw : m.wf) (hd : m.dotFree) (k : Key) (w : Val) :
    flattenMap m k = some w ↔ ∃ p, Leaf (.obj m) p w ∧ join p = k := by
  have hmem : ∀ p v, (p, v) ∈ (walkVal [] (.obj m)).filter (fun p => p.2.isLeaf) ↔
      Leaf (.obj m) p v := by
    intro p v
    rw [List.mem_filter]
    constructor
    · rintro ⟨h, hl⟩
      obtain ⟨p', rfl, h⟩ := (walkVal_spec (.obj m) hw [] p v hl).mp h
      simpa using h
    · intro h
      have hl : v.isLeaf = true := by
        clear hw hd
        generalize Val.obj m = x at h
        induction h with
        | here h => exact h
        | obj _ _ ih => exact ih
        | arr _ _ ih => exact ih
      exact ⟨(walkVal_spec (.obj m) hw [] p v hl).mpr ⟨p, rfl, h⟩, hl⟩
  have hne : ∀ p v, Leaf (.obj m) p v → p ≠ [] := by
    intro p v h
    cases h with
    | here h => simp [Val.isLeaf] at h
    | obj => simp
  unfold flattenMap
  rw [foldl_writes]
  · simp only [hmem]
    constructor
    · rintro (⟨p, h, e⟩ | ⟨_, h⟩)
      · exact ⟨p, h, e⟩
      · cases h
    · rintro ⟨p, h, e⟩; exact .inl ⟨p, h, e⟩
  · intro p v p' v' h h' e
    rw [hmem] at h h'
    have := join_inj (hne _ _ h) (hne _ _ h') (leaf_dotFree h hd) (leaf_dotFree h' hd) e
    subst this
    exact leaf_unique h h'

/-- `Leaf` through maps only. -/
inductive ObjLeaf : Obj → List Key → Val → Prop where
  | last {o k v} : o.lookup k = some v → v.isLeaf = true → ObjLeaf o [k] v
  | step {o k o' p w} : o.lookup k = some (.obj o') → ObjLeaf o' p w → ObjLeaf o (k :: p) w

/-- **C42.** `GetByPath` returns the value of every leaf that is reached through maps only. -/
theorem getByPath_leaf_partial {o : Obj} {p : List Key} {w : Val} (h : ObjLeaf o p w) :
    getByPath o p = w := by
  induction h with
  | @last o k v hl hv =>
    rw [getByPath_cons, hl]
    cases v <;> simp [Val.isLeaf] at hv ⊢
  | @step o k o' p w hl h ih =>
    rw [getByPath_cons, hl]
    have : p ≠ [] := by cases h <;> simp
    simp [this, ih]

example : flattenMap (.cons ['a'] (.obj (.cons ['b'] (.atom 1) .nil))
    (.cons ['c'] (.arr (.cons (.atom 2) .nil)) .nil)) ['c', '.', '0'] = some (.atom 2) := by
  decide

/-- **C42 is violated** by keys with dots: two iteration orders of the same map give
different results. -/
theorem flatten_collision_violated :
    let e1 := Val.obj (.cons ['b'] (.atom 2) .nil)
    flattenMap (.cons ['a', '.', 'b'] (.atom 1) (.cons ['a'] e1 .nil)) ['a', '.', 'b'] =
      some (.atom 2) ∧
    flattenMap (.cons ['a'] e1 (.cons ['a', '.', 'b'] (.atom 1) .nil)) ['a', '.', 'b'] =
      some (.atom 1) := by
  decide

/-- **C42 is violated** for leaves inside slices: flattening lists `a.0`, the path lookup
finds nothing there. -/
theorem getByPath_slice_violated :
    let m : Obj := .cons ['a'] (.arr (.cons (.atom 1) .nil)) .nil
    flattenMap m ['a', '.', '0'] = some (.atom 1) ∧ getByPath m [['a'], ['0']] = .nil := by
  decide

/-! ## C43 -/

/-- **C43.** `Swap` exchanges two positions and nothing else (and panics out of range). -/
theorem swap_spec {α : Type} (arr : List α) (i j : Nat) (hi : i < arr.length)
    (hj : j < arr.length) : ∃ r, swap arr i j = some r ∧ r.length = arr.length ∧
      ∀ n, r[n]? = if n = j then arr[i]? else if n = i then arr[j]? else arr[n]? := by
  refine ⟨(arr.set i arr[j]).set j arr[i], by simp [swap, hi, hj], by simp, ?_⟩
  intro n
  simp only [List.getElem?_set, List.length_set]
  grind

/-- **C43.** `RemoveAt(i)` keeps all elements but the `i`-th, as a multiset. -/
theorem removeAt_perm {α : Type} (arr : List α) (i : Nat) (hi : i < arr.length) :
    ∃ r, removeAt arr i = some r ∧ (arr[i] :: r).Perm arr := by
  have hn : 0 < arr.length := by omega
  obtain ⟨init, z, rfl⟩ : ∃ init z, arr = init ++ [z] := by
    have : arr ≠ [] := by intro h; simp [h] at hn
    exact ⟨arr.dropLast, arr.getLast this, (List.dropLast_concat_getLast this).symm⟩
  have hlast : (init ++ [z])[init.length]? = some z := by simp
  by_cases h : i = init.length
  · subst h
    refine ⟨init, ?_, ?_⟩
    · simp [removeAt, swap]
    · simpa using (List.perm_append_singleton z init).symm
  · have hi' : i < init.length := by simp at hi; omega
    refine ⟨init.set i z, ?_, ?_⟩
    · simp [removeAt, swap, List.getElem?_append, hi']
    · have hget : (init ++ [z])[i] = init[i] := by simp [hi']
      rw [hget]
      have h1 : (init[i] :: init.set i z).Perm (z :: init) := by
        clear hi hn hlast h hget
        induction init generalizing i with
        | nil => simp at hi'
        | cons a l ih =>
          cases i with
          | zero => simpa using List.Perm.swap z a l
          | succ i =>
            simp only [List.getElem_cons_succ, List.set_cons_succ]
            have := ih i (by simpa using hi')
            exact (List.Perm.swap _ _ _).trans ((this.cons a).trans (List.Perm.swap _ _ _))
      exact h1.trans (List.perm_append_singleton z init).symm

example : removeAt [1, 2, 3, 4] 1 = some [1, 4, 3] := by decide

/-- **C43.** `Includes` is membership. -/
theorem includes_iff {α : Type} [DecidableEq α] (arr : List α) (v : α) :
    includes arr v = true ↔ v ∈ arr := by
  induction arr with
  | nil => simp [includes]
  | cons a l ih =>
    simp only [includes, List.mem_cons]
    split
    · rename_i h; simp [h]
    · rename_i h; rw [ih]; simp [Ne.symm h]

/-- **C43.** `Copy` has the same elements. -/
theorem copySlice_eq {α : Type} (z : α) (arr : List α) : copySlice z arr = arr := by
  have key : ∀ n, n ≤ arr.length → (List.range n).foldl (copyStep arr)
      (List.replicate arr.length z) = arr.take n ++ List.replicate (arr.length - n) z := by
    intro n hn
    induction n with
    | zero => simp
    | succ n ih =>
      rw [List.range_succ, List.foldl_append, ih (by omega)]
      have hlt : n < arr.length := by omega
      have hl : (arr.take n).length = n := by simp; omega
      simp only [List.foldl_cons, List.foldl_nil, copyStep, List.getElem?_eq_getElem hlt]
      have e1 : arr.length - n = arr.length - (n + 1) + 1 := by omega
      rw [e1, List.replicate_succ, List.set_append_right _ _ (by omega), hl, Nat.sub_self,
        List.set_cons_zero, ← List.take_append_getElem hlt, List.append_assoc]
      rfl
  have := key arr.length (Nat.le_refl _)
  simpa [copySlice] using this

section
variable {K V : Type} [DecidableEq K]

theorem lookup_put (m : GMap K V) (k : K) (v : V) (k' : K) :
    (m.put k v).lookup k' = if k' = k then some v else m.lookup k' := by
  unfold GMap.put
  split
  · rename_i h
    induction m with
    | nil => simp at h
    | cons a m ih =>
      simp only [GMap.lookup, List.map_cons, List.find?_cons] at ih ⊢
      by_cases ha : a.1 = k
      · simp only [ha, if_true]
        by_cases hk : k' = k
        · simp [hk]
        · have : (k == k') = false := by simp [Ne.symm hk]
          simp only [this, if_neg hk]
          clear ih h
          induction m with
          | nil => simp
          | cons b m ihm =>
            simp only [List.map_cons, List.find?_cons]
            by_cases hb : b.1 = k
            · simp only [hb, if_true, this]; exact ihm
            · simp only [hb, if_false]
              cases hb' : (b.1 == k')
              · simp only; exact ihm
              · simp only
      · have h' : (m.any fun p => p.1 == k) = true := by simpa [ha] using h
        have := ih h'
        simp only [if_neg ha]
        cases ha' : (a.1 == k')
        · simp only; exact this
        · have : k' ≠ k := by
            have : a.1 = k' := by simpa using ha'
            rw [← this]; exact ha
          simp [this]
  · rename_i h
    simp only [GMap.lookup, List.find?_append]
    by_cases hk : k' = k
    · subst hk
      have : m.find? (fun p => p.1 == k') = none := by
        rw [List.find?_eq_none]
        intro x hx hp
        exact h (by simp only [List.any_eq_true]; exact ⟨x, hx, hp⟩)
      simp [this]
    · cases m.find? (fun p => p.1 == k') <;> simp [hk, Ne.symm hk]

/-- **C43.** `Merge` adds exactly the missing keys: present keys keep their value. -/
theorem mergeSets_lookup (src stuff : GMap K V) (k : K) :
    (mergeSets src stuff).lookup k = (src.lookup k).or (stuff.lookup k) := by
  unfold mergeSets
  induction stuff generalizing src with
  | nil => simp [GMap.lookup]
  | cons p stuff ih =>
    rw [List.foldl_cons, ih]
    have hc : GMap.lookup (p :: stuff) k = if p.1 = k then some p.2 else GMap.lookup stuff k := by
      simp only [GMap.lookup, List.find?_cons]
      by_cases h : p.1 = k
      · simp [h]
      · rw [if_neg h, show (p.1 == k) = false by simp [h]]
    rw [hc]
    split
    · rename_i hn
      rw [lookup_put]
      by_cases hk : k = p.1
      · subst hk
        have : src.lookup p.1 = none := by simpa using hn
        simp [this]
      · simp [hk, Ne.symm hk]
    · rename_i hn
      by_cases hk : p.1 = k
      · subst hk
        cases hs : src.lookup p.1 with
        | none => simp [hs] at hn
        | some _ => simp
      · simp [hk]

/-- **C43.** `CloneMap` has the same entries (a Go map has each key once). -/
theorem cloneMap_lookup (m : GMap K V) (h : (m.map (·.1)).Nodup) (k : K) :
    (cloneMap m).lookup k = m.lookup k := by
  have key : ∀ (m nm : GMap K V), (m.map (·.1)).Nodup →
      (m.foldl (fun nm p => nm.put p.1 p.2) nm).lookup k = (m.lookup k).or (nm.lookup k) := by
    intro m
    induction m with
    | nil => intro nm _; simp [GMap.lookup]
    | cons p m ih =>
      intro nm hn
      rw [List.map_cons, List.nodup_cons] at hn
      rw [List.foldl_cons, ih _ hn.2, lookup_put]
      have hc : GMap.lookup (p :: m) k = if p.1 = k then some p.2 else GMap.lookup m k := by
        simp only [GMap.lookup, List.find?_cons]
        by_cases h : p.1 = k
        · simp [h]
        · rw [if_neg h, show (p.1 == k) = false by simp [h]]
      rw [hc]
      by_cases hk : k = p.1
      · subst hk
        have : GMap.lookup m p.1 = none := by
          simp only [GMap.lookup, Option.map_eq_none_iff, List.find?_eq_none]
          intro x hx hp
          exact hn.1 (List.mem_map.mpr ⟨x, hx, by simpa using hp⟩)
        simp [this]
      · simp [hk, Ne.symm hk]
  rw [cloneMap, key m [] h]
  simp [GMap.lookup]

/-- **C43.** `TakeOne` removes exactly the entry whose value it returns, whichever the runtime
iterates first; on an empty map it returns the zero value and changes nothing. -/
theorem takeOne_spec (m : GMap K V) (h : (m.map (·.1)).Nodup) :
    (m = [] ∧ takeOne m = (none, [])) ∨
    ∃ k v, m.lookup k = some v ∧ (takeOne m).1 = some v ∧
      ∀ k', (takeOne m).2.lookup k' = if k' = k then none else m.lookup k' := by
  cases m with
  | nil => exact .inl ⟨rfl, rfl⟩
  | cons p m =>
    right
    obtain ⟨k, v⟩ := p
    refine ⟨k, v, by simp [GMap.lookup], rfl, ?_⟩
    intro k'
    simp only [takeOne, GMap.lookup, List.filter_cons, bne_self_eq_false, Bool.false_eq_true,
      if_false, List.find?_filter]
    rw [List.map_cons, List.nodup_cons] at h
    by_cases hk : k' = k
    · subst hk
      rw [if_pos rfl, Option.map_eq_none_iff, List.find?_eq_none]
      intro x _
      simp
    · rw [if_neg hk, List.find?_cons]
      have : (k == k') = false := by simp [Ne.symm hk]
      simp only [this]
      congr 2
      funext x
      by_cases hx : x.1 = k'
      · simp [hx, hk]
      · simp [hx]

end

example : mergeSets [(1, 10), (2, 20)] [(2, 99), (3, 30)] = [(1, 10), (2, 20), (3, 30)] := by decide

end Mole.Util
