import Verif.Util.OrderedMap
/-!
# Properties C36–C38: ordered map and LRU cache
-/
namespace Mole.Util

variable {K V : Type} [DecidableEq K]

/-! ## Specification: an ordered map is a list of pairs, latest `Set` last. -/

/-- Abstract effect of one call on the entries in order of latest insertion. -/
def specStep (l : List (K × V)) : MapOp K V → List (K × V)
  | .set k v => l.filter (fun p => p.1 != k) ++ [(k, v)]
  | .remove k => l.filter (fun p => p.1 != k)

/-- Abstract effect of a history. -/
def specRun (l : List (K × V)) (h : List (MapOp K V)) : List (K × V) := h.foldl specStep l

/-- The value of the latest `Set` of `k` in a history of sets. -/
def lastSet (h : List (K × V)) (k : K) : Option V :=
  (h.reverse.find? (fun p => p.1 == k)).map (·.2)

/-! ## Invariant -/

/-- The list holds each key once, the dictionary points exactly to the list elements, and all
identities are older than the allocator. -/
structure WF (o : OMap K V) : Prop where
  keys : (o.list.map (·.key)).Nodup
  ids : (o.list.map (·.id)).Nodup
  dict : ∀ k e, o.dict k = some e ↔ (e ∈ o.list ∧ e.key = k)
  fresh : ∀ e ∈ o.list, e.id < o.next

def entries (o : OMap K V) : List (K × V) := o.list.map fun e => (e.key, e.val)

omit [DecidableEq K] in
theorem nodup_map_inj {β : Type} {l : List (Elem K V)} {f : Elem K V → β} (h : (l.map f).Nodup)
    {x y : Elem K V} (hx : x ∈ l) (hy : y ∈ l) (e : f x = f y) : x = y := by
  induction l with
  | nil => cases hx
  | cons a l ih =>
    rw [List.map_cons, List.nodup_cons] at h
    rcases List.mem_cons.mp hx with rfl | hx1 <;> rcases List.mem_cons.mp hy with rfl | hy1
    · rfl
    · exact absurd (List.mem_map_of_mem hy1) (e ▸ h.1)
    · exact absurd (e ▸ List.mem_map_of_mem (f := f) hx1) h.1
    · exact ih h.2 hx1 hy1

theorem filter_id_eq_filter_key {l : List (Elem K V)} (hk : (l.map (·.key)).Nodup)
    (hi : (l.map (·.id)).Nodup) {e : Elem K V} (he : e ∈ l) :
    listRemove l e = l.filter (fun x => x.key != e.key) := by
  unfold listRemove
  apply List.filter_congr
  intro x hx
  have : x.id = e.id ↔ x.key = e.key :=
    ⟨fun h => by rw [nodup_map_inj (f := (·.id)) hi hx he h],
     fun h => by rw [nodup_map_inj (f := (·.key)) hk hx he h]⟩
  rw [Bool.eq_iff_iff]
  simp [this]

omit [DecidableEq K] in
theorem WF.new : WF (OMap.new : OMap K V) :=
  ⟨by simp [OMap.new], by simp [OMap.new], by simp [OMap.new], by simp [OMap.new]⟩

/-- What `Set` does to the list of a well-formed map. -/
theorem WF.set_list {o : OMap K V} (h : WF o) (k : K) (v : V) :
    (o.set k v).1.list = o.list.filter (fun x => x.key != k) ++ [⟨o.next, k, v⟩] := by
  unfold OMap.set
  cases hd : o.dict k with
  | none =>
    simp only
    congr 1
    symm; rw [List.filter_eq_self]
    intro a ha
    simp only [bne_iff_ne, ne_eq]
    intro hk
    have := (h.dict k a).mpr ⟨ha, hk⟩
    rw [hd] at this; cases this
  | some old =>
    simp only
    obtain ⟨hm, hk⟩ := (h.dict k old).mp hd
    have hl : listRemove (o.list ++ [⟨o.next, k, v⟩]) old = listRemove o.list old ++ [⟨o.next, k, v⟩] := by
      unfold listRemove
      rw [List.filter_append]
      congr 1
      have := h.fresh old hm
      have : o.next ≠ old.id := by omega
      simp [this]
    rw [hl, filter_id_eq_filter_key h.keys h.ids hm, hk]

theorem WF.set {o : OMap K V} (h : WF o) (k : K) (v : V) : WF (o.set k v).1 := by
  have hl := h.set_list k v
  have hdict : (o.set k v).1.dict = fun k' => if k' = k then some ⟨o.next, k, v⟩ else o.dict k' := by
    unfold OMap.set; cases o.dict k <;> rfl
  have hnext : (o.set k v).1.next = o.next + 1 := by
    unfold OMap.set; cases o.dict k <;> rfl
  constructor
  · rw [hl, List.map_append, List.nodup_append]
    refine ⟨(List.Sublist.map _ List.filter_sublist).nodup h.keys, by simp, ?_⟩
    intro a ha b hb
    simp at hb; subst hb
    simp only [List.mem_map, List.mem_filter] at ha
    obtain ⟨x, ⟨_, hx⟩, rfl⟩ := ha
    simpa using hx
  · rw [hl, List.map_append, List.nodup_append]
    refine ⟨(List.Sublist.map _ List.filter_sublist).nodup h.ids, by simp, ?_⟩
    intro a ha b hb
    simp at hb; subst hb
    simp only [List.mem_map, List.mem_filter] at ha
    obtain ⟨x, ⟨hx, _⟩, rfl⟩ := ha
    have := h.fresh x hx; omega
  · intro k' e
    rw [hdict, hl]
    simp only [List.mem_append, List.mem_filter, List.mem_singleton]
    by_cases hk : k' = k
    · subst hk
      simp only [if_true]
      constructor
      · intro he; cases he; exact ⟨.inr rfl, rfl⟩
      · rintro ⟨⟨_, hne⟩ | rfl, hkey⟩
        · simp [hkey] at hne
        · rfl
    · rw [if_neg hk, h.dict]
      constructor
      · rintro ⟨he, hkey⟩
        refine ⟨.inl ⟨he, ?_⟩, hkey⟩
        simp [hkey, hk]
      · rintro ⟨⟨he, _⟩ | rfl, hkey⟩
        · exact ⟨he, hkey⟩
        · exact absurd hkey.symm hk
  · intro e he
    rw [hl] at he; rw [hnext]
    simp only [List.mem_append, List.mem_filter, List.mem_singleton] at he
    rcases he with ⟨he, _⟩ | rfl
    · have := h.fresh e he; omega
    · simp

theorem WF.remove_list {o : OMap K V} (h : WF o) (k : K) :
    (o.remove k).list = o.list.filter (fun x => x.key != k) := by
  unfold OMap.remove
  cases hd : o.dict k with
  | none =>
    simp only
    symm; rw [List.filter_eq_self]
    intro a ha
    simp only [bne_iff_ne, ne_eq]
    intro hk
    have := (h.dict k a).mpr ⟨ha, hk⟩
    rw [hd] at this; cases this
  | some old =>
    obtain ⟨hm, hk⟩ := (h.dict k old).mp hd
    simp only
    rw [filter_id_eq_filter_key h.keys h.ids hm, hk]

theorem WF.remove {o : OMap K V} (h : WF o) (k : K) : WF (o.remove k) := by
  have hl := h.remove_list k
  have hnext : (o.remove k).next = o.next := by
    unfold OMap.remove; cases o.dict k <;> rfl
  have hdict : ∀ k', (o.remove k).dict k' = if k' = k then none else o.dict k' := by
    intro k'
    unfold OMap.remove
    cases hd : o.dict k with
    | none => simp only; split
              · rename_i hk; rw [hk, hd]
              · rfl
    | some _ => rfl
  constructor
  · rw [hl]; exact (List.Sublist.map _ List.filter_sublist).nodup h.keys
  · rw [hl]; exact (List.Sublist.map _ List.filter_sublist).nodup h.ids
  · intro k' e
    rw [hdict, hl, List.mem_filter]
    by_cases hk : k' = k
    · subst hk
      simp only [if_true]
      constructor
      · intro h; cases h
      · rintro ⟨⟨_, hne⟩, hkey⟩; simp [hkey] at hne
    · rw [if_neg hk, h.dict]
      constructor
      · rintro ⟨he, hkey⟩; exact ⟨⟨he, by simp [hkey, hk]⟩, hkey⟩
      · rintro ⟨⟨he, _⟩, hkey⟩; exact ⟨he, hkey⟩
  · intro e he
    rw [hl] at he; rw [hnext]
    exact h.fresh e (List.mem_filter.mp he).1

theorem entries_filter (l : List (Elem K V)) (k : K) :
    (l.filter (fun x => x.key != k)).map (fun e => (e.key, e.val)) =
      (l.map (fun e => (e.key, e.val))).filter (fun p => p.1 != k) := by
  rw [List.filter_map]; rfl

theorem WF.run {o : OMap K V} (h : WF o) (ops : List (MapOp K V)) :
    WF (o.run ops) ∧ entries (o.run ops) = specRun (entries o) ops := by
  induction ops generalizing o with
  | nil => exact ⟨h, rfl⟩
  | cons op ops ih =>
    cases op with
    | set k v =>
      obtain ⟨i1, i2⟩ := ih (h.set k v)
      refine ⟨i1, ?_⟩
      simp only [OMap.run]
      rw [i2]
      have : entries (o.set k v).1 = specStep (entries o) (.set k v) := by
        simp only [entries, specStep]
        rw [h.set_list, List.map_append, entries_filter]
        rfl
      rw [this]; rfl
    | remove k =>
      obtain ⟨i1, i2⟩ := ih (h.remove k)
      refine ⟨i1, ?_⟩
      simp only [OMap.run]
      rw [i2]
      have : entries (o.remove k) = specStep (entries o) (.remove k) := by
        simp only [entries, specStep]
        rw [h.remove_list, entries_filter]
      rw [this]; rfl

/-- **C38, C37.** After any history of `Set` and `Remove` on an ordered map: the list is the
entries in the order of their latest `Set`, each key once; `Front` is the least recently set;
`HasKey` and `Get` answer by these entries. -/
theorem orderedMap_refines (ops : List (MapOp K V)) :
    let o := (OMap.new : OMap K V).run ops
    let spec := specRun [] ops
    entries o = spec ∧ (spec.map (·.1)).Nodup ∧
    (o.front.map fun e => (e.key, e.val)) = spec.head? ∧
    (∀ k, o.hasKey k = true ↔ k ∈ spec.map (·.1)) ∧
    (∀ k v, o.get k = some v ↔ (k, v) ∈ spec) := by
  intro o spec
  obtain ⟨h, he⟩ := WF.run (WF.new (K := K) (V := V)) ops
  have he : entries o = spec := he
  refine ⟨he, ?_, ?_, ?_, ?_⟩
  · rw [← he]; simp only [entries, List.map_map]; exact h.keys
  · rw [← he]; simp [entries, OMap.front, o]
  · intro k
    rw [← he]
    simp only [OMap.hasKey, Option.isSome_iff_exists, entries, List.map_map, List.mem_map,
      Function.comp]
    constructor
    · rintro ⟨e, he⟩
      obtain ⟨a, b⟩ := (h.dict k e).mp he
      exact ⟨e, a, b⟩
    · rintro ⟨e, a, b⟩
      exact ⟨e, (h.dict k e).mpr ⟨a, b⟩⟩
  · intro k v
    rw [← he]
    simp only [OMap.get, Option.map_eq_some_iff, entries, List.mem_map, Prod.mk.injEq]
    constructor
    · rintro ⟨e, he, rfl⟩
      obtain ⟨a, b⟩ := (h.dict k e).mp he
      exact ⟨e, a, b, rfl⟩
    · rintro ⟨e, a, b, rfl⟩
      exact ⟨e, (h.dict k e).mpr ⟨a, b⟩, rfl⟩

example : specRun ([] : List (Nat × Nat)) [.set 1 10, .set 2 20, .set 1 11, .set 3 30, .remove 2]
    = [(1, 11), (3, 30)] := by decide

/-! ## LRU cache -/

theorem lru_section_dict (c : Lru K V) (b : Bool) (k : K) (v : V) (k' : K) :
    ((c.setSection b k v).store.dict k').map (·.val) =
      if k' = k then some v else (c.store.dict k').map (·.val) := by
  have hs : ∀ (o : OMap K V), ((o.set k v).1.dict k').map (·.val) =
      if k' = k then some v else (o.dict k').map (·.val) := by
    intro o
    unfold OMap.set
    cases o.dict k <;> (simp only; split <;> rfl)
  unfold Lru.setSection
  cases b with
  | true => simp only [if_true]; exact hs c.store
  | false => simp only [Bool.false_eq_true, if_false]; exact hs _

theorem lastSet_cons (h : List (K × V)) (p : K × V) (k : K) :
    lastSet (p :: h) k = (lastSet h k).or (if p.1 = k then some p.2 else none) := by
  simp only [lastSet, List.reverse_cons, List.find?_append]
  cases h.reverse.find? (fun p => p.1 == k) with
  | some q => simp
  | none => by_cases hp : p.1 = k <;> simp [hp]

/-- **C37.** In every interleaving of concurrent `Set` calls on one cache (the sections under
the write lock in any order, each with an arbitrary, possibly outdated, answer of its check),
`Get k` returns the value of the latest `Set` of `k`, and the zero value if there was none. -/
theorem lru_get_last_set (cap clear : Int) (h : List (Bool × K × V)) (k : K) :
    ((Lru.new cap clear : Lru K V).sections h).get k = lastSet (h.map (·.2)) k := by
  suffices H : ∀ (c : Lru K V), (c.sections h).get k =
      (lastSet (h.map (·.2)) k).or (c.get k) by
    rw [H]; simp [Lru.new, Lru.get, OMap.get, OMap.new]
  induction h with
  | nil => intro c; simp [Lru.sections, lastSet]
  | cons p h ih =>
    intro c
    obtain ⟨b, k1, v1⟩ := p
    simp only [Lru.sections, List.map_cons]
    rw [ih, lastSet_cons]
    have : (c.setSection b k1 v1).get k = if k = k1 then some v1 else c.get k :=
      lru_section_dict c b k1 v1 k
    rw [this, Option.or_assoc]
    congr 1
    by_cases hk : k = k1
    · subst hk; simp
    · rw [if_neg hk, if_neg (fun e => hk e.symm)]; simp

example : ((Lru.new 3 1 : Lru Nat Nat).sections
    [(false, 1, 10), (false, 2, 20), (true, 1, 11), (false, 1, 12)]).get 1 = some 12 := by decide

theorem sets_eq_sections (c : Lru K V) (h : List (K × V)) :
    ∃ h', h'.map (·.2) = h ∧ c.sets h = c.sections h' := by
  induction h generalizing c with
  | nil => exact ⟨[], rfl, rfl⟩
  | cons p h ih =>
    obtain ⟨k, v⟩ := p
    obtain ⟨h', e1, e2⟩ := ih (c.set k v)
    exact ⟨(c.hasKey k, k, v) :: h', by simp [e1], by simp only [Lru.sets, Lru.sections]; exact e2⟩

/-- **C36, the code's actual behaviour.**  The cache never forgets: after any history of
`Set` calls `HasKey k` is true exactly when `k` was ever set, whatever the capacity. -/
theorem lru_never_forgets (cap clear : Int) (h : List (K × V)) (k : K) :
    ((Lru.new cap clear : Lru K V).sets h).hasKey k = true ↔ k ∈ h.map (·.1) := by
  obtain ⟨h', e1, e2⟩ := sets_eq_sections (Lru.new cap clear : Lru K V) h
  have hg := lru_get_last_set cap clear h' k
  rw [← e2, e1] at hg
  have : ((Lru.new cap clear : Lru K V).sets h).hasKey k =
      (((Lru.new cap clear : Lru K V).sets h).get k).isSome := by
    simp [Lru.hasKey, Lru.get, OMap.hasKey, OMap.get]
  rw [this, hg]
  simp only [lastSet, Option.isSome_map, List.find?_isSome, List.mem_reverse, List.mem_map]
  constructor
  · rintro ⟨x, hx, hk⟩; exact ⟨x, hx, by simpa using hk⟩
  · rintro ⟨x, hx, hk⟩; exact ⟨x, hx, by simpa using hk⟩

/-- **C36 is violated.**  A cache of capacity 3 with clear count 1 holds 4 keys after 4 sets,
among them the key whose list element was evicted. -/
theorem lru_capacity_violated :
    let c := (Lru.new 3 1 : Lru Nat Nat).sets [(1, 0), (2, 0), (3, 0), (4, 0)]
    ([1, 2, 3, 4].all fun k => c.hasKey k) = true ∧ (c.store.list.map (·.key)) = [2, 3, 4] := by
  decide

/-- **C36 is violated also for the recency list.**  Setting an evicted key again pushes the
list over the capacity (cap 3). -/
theorem lru_list_overflow_violated :
    ((Lru.new 3 1 : Lru Nat Nat).sets [(1, 0), (2, 0), (3, 0), (4, 0), (1, 0)]).store.list.length
      = 4 := by
  decide

/-- **C36 is violated for small capacities.**  With the default clear count and capacity at
most 2 nothing is ever evicted from the list. -/
theorem lru_small_capacity_violated :
    ((Lru.new 2 0 : Lru Nat Nat).sets [(1, 0), (2, 0), (3, 0)]).store.list.length = 3 := by
  decide

omit [DecidableEq K] in
theorem dropFront_eq (l : List (Elem K V)) (hi : (l.map (·.id)).Nodup) (n : Nat) :
    dropFront l n = l.drop n := by
  induction n generalizing l with
  | zero => simp [dropFront]
  | succ n ih =>
    cases l with
    | nil => simp only [dropFront]; rw [ih [] (by simp)]; simp
    | cons e l =>
      simp only [dropFront]
      have hi' := hi
      rw [List.map_cons, List.nodup_cons] at hi
      have : listRemove (e :: l) e = l := by
        simp only [listRemove, List.filter_cons, bne_self_eq_false, Bool.false_eq_true, if_false]
        rw [List.filter_eq_self]
        intro a ha
        simp only [bne_iff_ne, ne_eq]
        intro h
        exact hi.1 (h ▸ List.mem_map_of_mem ha)
      rw [this, ih l hi.2, List.drop_succ_cons]

/-- Cache states reached by undisturbed `Set` calls: the list has distinct keys and
identities, its elements are what the dictionary points to. -/
structure LWF (c : Lru K V) : Prop where
  keys : (c.store.list.map (·.key)).Nodup
  ids : (c.store.list.map (·.id)).Nodup
  dict : ∀ e ∈ c.store.list, c.store.dict e.key = some e
  fresh : ∀ e ∈ c.store.list, e.id < c.store.next
  fresh' : ∀ k e, c.store.dict k = some e → e.id < c.store.next
  inj : ∀ k1 k2 e1 e2, c.store.dict k1 = some e1 → c.store.dict k2 = some e2 → e1.id = e2.id →
    k1 = k2

omit [DecidableEq K] in
theorem LWF.new (cap clear : Int) : LWF (Lru.new cap clear : Lru K V) := by
  constructor <;> simp [Lru.new, OMap.new]

theorem omap_set_eq (o : OMap K V) (k : K) (v : V) :
    (o.set k v).1 = ⟨fun k' => if k' = k then some ⟨o.next, k, v⟩ else o.dict k',
      (match o.dict k with
       | some old => listRemove (o.list ++ [⟨o.next, k, v⟩]) old
       | none => o.list ++ [⟨o.next, k, v⟩]), o.next + 1⟩ ∧ (o.set k v).2 = ⟨o.next, k, v⟩ := by
  unfold OMap.set; cases o.dict k <;> exact ⟨rfl, rfl⟩

/-- The list after an undisturbed `Set`: if the key is known, it moves to (or reappears at)
the back; otherwise the front `clear` elements go first when the list is full. -/
theorem LWF.set_list {c : Lru K V} (h : LWF c) (k : K) (v : V) :
    (c.set k v).store.list =
      (if c.hasKey k then c.store.list.filter (fun x => x.key != k)
       else if (c.store.list.length : Int) + 1 > c.cap then c.store.list.drop c.clear.toNat
       else c.store.list) ++ [⟨c.store.next, k, v⟩] := by
  have hrem : ∀ old, c.store.dict k = some old →
      listRemove (c.store.list ++ [⟨c.store.next, k, v⟩]) old =
      c.store.list.filter (fun x => x.key != k) ++ [⟨c.store.next, k, v⟩] := by
    intro old hd
    have hlt := h.fresh' k old hd
    unfold listRemove
    rw [List.filter_append]
    congr 1
    · apply List.filter_congr
      intro x hx
      have : x.id = old.id ↔ x.key = k := by
        constructor
        · intro hid
          exact h.inj _ _ _ _ (h.dict x hx) hd hid
        · intro hk
          have := h.dict x hx
          rw [hk, hd] at this; cases this; rfl
      rw [Bool.eq_iff_iff]; simp [this]
    · have : c.store.next ≠ old.id := by omega
      simp [this]
  obtain ⟨hs1, hs2⟩ := omap_set_eq c.store k v
  unfold Lru.set Lru.setSection
  cases hd : c.store.dict k with
  | some old =>
    have hh : c.hasKey k = true := by simp [Lru.hasKey, OMap.hasKey, hd]
    simp only [hh, if_true]
    rw [hs1, hs2]
    simp only [hd]
    rw [hrem old hd]
    unfold listMoveToBack
    rw [if_pos (by simp), List.filter_append]
    have : (c.store.list.filter (fun x => x.key != k)).filter (fun x => x.id != c.store.next) =
        c.store.list.filter (fun x => x.key != k) := by
      rw [List.filter_eq_self]
      intro a ha
      have := h.fresh a (List.mem_filter.mp ha).1
      simp only [bne_iff_ne, ne_eq]; omega
    simp [this]
  | none =>
    have hh : c.hasKey k = false := by simp [Lru.hasKey, OMap.hasKey, hd]
    simp only [hh, Bool.false_eq_true, if_false]
    rw [(omap_set_eq _ k v).1]
    simp only [hd, dropFront_eq _ h.ids]

theorem lru_set_dict (c : Lru K V) (k : K) (v : V) :
    (c.set k v).store.dict = (fun k' => if k' = k then some ⟨c.store.next, k, v⟩ else c.store.dict k')
    ∧ (c.set k v).store.next = c.store.next + 1 ∧ (c.set k v).cap = c.cap ∧
    (c.set k v).clear = c.clear := by
  unfold Lru.set Lru.setSection
  cases c.hasKey k
  · simp only [Bool.false_eq_true, if_false]
    rw [(omap_set_eq _ k v).1]
    simp
  · simp only [if_true]
    rw [(omap_set_eq c.store k v).1]
    simp

/-- The kept part of the list is a sublist of the old one without the key set. -/
theorem LWF.kept {c : Lru K V} (h : LWF c) (k : K) (v : V) :
    ∃ l, (c.set k v).store.list = l ++ [⟨c.store.next, k, v⟩] ∧ l.Sublist c.store.list ∧
      ∀ e ∈ l, e.key ≠ k := by
  refine ⟨_, h.set_list k v, ?_, ?_⟩
  · split
    · exact List.filter_sublist
    · split
      · exact List.drop_sublist _ _
      · exact List.Sublist.refl _
  · intro e he
    split at he
    · simpa using (List.mem_filter.mp he).2
    · rename_i hh
      have hm : e ∈ c.store.list := by
        split at he
        · exact List.mem_of_mem_drop he
        · exact he
      intro hk
      have := h.dict e hm
      rw [hk] at this
      simp [Lru.hasKey, OMap.hasKey, this] at hh

theorem LWF.set {c : Lru K V} (h : LWF c) (k : K) (v : V) : LWF (c.set k v) := by
  obtain ⟨l, hl, hsub, hne⟩ := h.kept k v
  obtain ⟨hd, hn, _, _⟩ := lru_set_dict c k v
  constructor
  · rw [hl, List.map_append, List.nodup_append]
    refine ⟨(hsub.map _).nodup h.keys, by simp, ?_⟩
    intro a ha b hb
    simp at hb; subst hb
    obtain ⟨x, hx, rfl⟩ := List.mem_map.mp ha
    exact hne x hx
  · rw [hl, List.map_append, List.nodup_append]
    refine ⟨(hsub.map _).nodup h.ids, by simp, ?_⟩
    intro a ha b hb
    simp at hb; subst hb
    obtain ⟨x, hx, rfl⟩ := List.mem_map.mp ha
    have := h.fresh x (hsub.subset hx); omega
  · intro e he
    rw [hl] at he
    rw [hd]
    rcases List.mem_append.mp he with he | he
    · simp only [if_neg (hne e he)]
      exact h.dict e (hsub.subset he)
    · simp at he; subst he; simp
  · intro e he
    rw [hl] at he
    rw [hn]
    rcases List.mem_append.mp he with he | he
    · have := h.fresh e (hsub.subset he); omega
    · simp at he; subst he; simp
  · intro k' e he
    rw [hd] at he; rw [hn]
    simp only at he
    split at he
    · cases he; simp
    · have := h.fresh' k' e he; omega
  · intro k1 k2 e1 e2 h1 h2 hid
    rw [hd] at h1 h2
    simp only at h1 h2
    split at h1 <;> split at h2
    · rename_i a b; rw [a, b]
    · cases h1
      have := h.fresh' k2 e2 h2
      simp only at hid; omega
    · cases h2
      have := h.fresh' k1 e1 h1
      simp only at hid; omega
    · exact h.inj k1 k2 e1 e2 h1 h2 hid

theorem LWF.sets {c : Lru K V} (h : LWF c) (l : List (K × V)) : LWF (c.sets l) := by
  induction l generalizing c with
  | nil => exact h
  | cons p l ih => exact ih (h.set p.1 p.2)

theorem lru_sets_cap (c : Lru K V) (l : List (K × V)) :
    (c.sets l).cap = c.cap ∧ (c.sets l).clear = c.clear := by
  induction l generalizing c with
  | nil => exact ⟨rfl, rfl⟩
  | cons p l ih =>
    obtain ⟨_, _, e1, e2⟩ := lru_set_dict c p.1 p.2
    simp only [Lru.sets]
    rw [(ih (c.set p.1 p.2)).1, (ih (c.set p.1 p.2)).2, e1, e2]
    exact ⟨rfl, rfl⟩

/-- The keys of the recency list of a cache, least recently set first. -/
def recency (c : Lru K V) : List K := c.store.list.map (·.key)

/-- **C36, the part that holds.**  Full statement: after any history of `Set` calls the cache
holds at most `cap` entries and evicts the least recently set ones.  Proved: after any history,
the recency list has no key twice; a `Set` of a key of the list moves it to the back and evicts
nothing; a `Set` of a new key evicts, only when the list is full, exactly the `clear` least
recently set keys; and if `1 ≤ clear ≤ cap` the list length stays within `cap` for both.
Missing: the dictionary keeps every key (`lru_never_forgets`), and a `Set` of an evicted key
evicts nothing (`lru_list_overflow_violated`). -/
theorem lru_recency_partial (cap clear : Int) (hist : List (K × V)) (k : K) (v : V) :
    let c := (Lru.new cap clear : Lru K V).sets hist
    (recency c).Nodup ∧
    (k ∈ recency c → recency (c.set k v) = (recency c).filter (· != k) ++ [k]) ∧
    (k ∉ hist.map (·.1) → recency (c.set k v) =
      (if (recency c).length ≥ cap then (recency c).drop c.clear.toNat else recency c) ++ [k]) ∧
    (1 ≤ clear → clear ≤ cap → (recency c).length ≤ cap →
      k ∈ recency c ∨ k ∉ hist.map (·.1) → (recency (c.set k v)).length ≤ cap) := by
  intro c
  have hw : LWF c := (LWF.new cap clear).sets hist
  have hcap : c.cap = cap := (lru_sets_cap _ hist).1
  have hclear : c.clear = (Lru.new cap clear : Lru K V).clear := (lru_sets_cap _ hist).2
  have h2 : k ∈ recency c → recency (c.set k v) = (recency c).filter (· != k) ++ [k] := by
    intro hk
    obtain ⟨e, he, rfl⟩ := List.mem_map.mp hk
    have hh : c.hasKey e.key = true := by simp [Lru.hasKey, OMap.hasKey, hw.dict e he]
    unfold recency
    rw [hw.set_list, hh]
    simp only [if_true, List.map_append, List.map_cons, List.map_nil, List.filter_map]
    rfl
  have h3 : k ∉ hist.map (·.1) → recency (c.set k v) =
      (if (recency c).length ≥ cap then (recency c).drop c.clear.toNat else recency c) ++ [k] := by
    intro hk
    have hh : c.hasKey k = false := by
      cases hc : c.hasKey k with
      | false => rfl
      | true => exact absurd ((lru_never_forgets cap clear hist k).mp hc) hk
    unfold recency
    rw [hw.set_list, hh]
    simp only [Bool.false_eq_true, if_false, List.map_append, List.map_cons, List.map_nil,
      List.length_map, hcap]
    by_cases hl : (c.store.list.length : Int) ≥ cap
    · rw [if_pos (by omega), if_pos hl, List.map_drop]
    · rw [if_neg (by omega), if_neg hl]
  refine ⟨hw.keys, h2, h3, ?_⟩
  intro hc1 hc2 hlen hk
  by_cases hm : k ∈ recency c
  · rw [h2 hm]
    have hlt : ((recency c).filter (· != k)).length < (recency c).length :=
      List.length_filter_lt_length_iff_exists.mpr ⟨k, hm, by simp⟩
    simp only [List.length_append, List.length_cons, List.length_nil]
    omega
  · rw [h3 (hk.resolve_left hm)]
    have : c.clear = clear := by
      rw [hclear]; unfold Lru.new; simp only; rw [if_neg (by omega)]
    rw [this]
    simp only [List.length_append, List.length_cons, List.length_nil]
    split
    · rw [List.length_drop]; omega
    · omega

example : recency ((Lru.new 4 2 : Lru Nat Nat).sets
    [(1, 0), (2, 0), (3, 0), (1, 1), (4, 0), (5, 0)]) = [1, 4, 5] := by decide

end Mole.Util
