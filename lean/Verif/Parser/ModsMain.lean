import Verif.Parser.ModsLemmas
/-! # Modifiers of class members (the two readings agree) -/
namespace Mole.Parser.Mods

theorem meant_bad {cls : Cls} {n : Name} {m : Bool} {ms : List Word} {r : List Tok} (h : inOrder ms = false) :
    meant cls n m ms r = .err := by
  simp [meant, allowed, h]

theorem named_bad {cls : Cls} {n : Name} {ms : List Word} {a : List Tok} (h : inOrder ms = false) : named cls n ms a = .err := by
  simp [named, meant_bad h]

theorem want_bad {cls : Cls} {ts : List Tok} (h : inOrder (split false ts).1 = false) : want cls ts = .err := by
  have hne : (split false ts).1.isEmpty = false := by
    cases hs : (split false ts).1 with
    | nil => rw [hs] at h; cases h
    | cons _ _ => rfl
  simp only [want]
  cases (split false ts).2 with
  | nil => rfl
  | cons t r =>
    obtain ⟨k, nl⟩ := t
    cases k <;> simp [named_bad h, meant_bad h, hne]

theorem elem_twice {cls : Cls} {ts : List Tok} (h : Twice (modifiers [] ts)) : classElem cls ts = .err := by
  obtain ⟨sn, w, b, u, r, he, hf, hn⟩ := h
  obtain ⟨k, nl⟩ := u
  simp only at hf hn
  simp only [classElem, he]
  have ht : ∀ l am, tail cls sn l am (⟨.word w, b⟩ :: ⟨k, nl⟩ :: r) = .err := by
    intro l am
    cases k <;> simp [follows] at hf <;> simp [tail, dropMark, isField, head, hn]
  simp [head, ht]

/-- What the code asks of a member comes to what is meant. -/
theorem member_meant (cls : Cls) (n : Name) (m : Bool) (ms : List Word) (r : List Tok)
    (ho : inOrder ms = true) (hm : m = true → has 3 ms = false ∧ has 5 ms = false) (hp : n = .key true → has 5 ms = false) :
    member cls n m (flagsOf ms) r = meant cls n m ms r := by
  have : body cls n (flagsOf ms) = allowed cls n m ms := by
    simp only [body, allowed, flagsOf, access_eq, contains_abstract, contains_readonly, contains_override, contains_declare, ho, Bool.true_and]
    have h1 : (m && (has 3 ms || has 5 ms)) = false := by
      cases m with
      | false => rfl
      | true => simp [hm rfl]
    rw [h1]
    by_cases hn : n = .key true
    · rw [hp hn]
      cases has 2 ms <;> cases has 4 ms <;> cases cls.abstract <;> cases cls.ext <;> simp
    · have : (n == .key true) = false := by simpa using hn
      rw [this]
      cases has 2 ms <;> cases has 4 ms <;> cases cls.abstract <;> cases cls.ext <;> simp
  simp only [member, meant, this, said_eq]

theorem flags_same (ms : List Word) : { flagsOf ms with acc := accOf ms } = flagsOf ms := rfl

theorem order_brace {ms : List Word} {b : Bool} (h : has 0 ms = false ∨ b = false) : order ms b = order ms false := by
  rcases h with h | h <;> simp [order, h]

/-- A static block with modifiers. -/
theorem order_block {ms : List Word} (h0 : has 0 ms = true) {w : Word} (hw : w ∈ ms) {k : Nat} (hk : w.kind = some k) (hs : w ≠ .static) :
    order ms true = false := by
  have hh : has k ms = true := List.any_eq_true.2 ⟨w, hw, by simp [hk]⟩
  cases w <;> simp only [Word.kind, Option.some.injEq] at hk <;> first | exact (hs rfl).elim | (subst hk; simp [order, h0, hh]) | cases hk

theorem field_named (cls : Cls) (n : Name) (ms : List Word) (a : List Tok) (ho : inOrder ms = true)
    (hm : (head a).k = .paren → has 3 ms = false ∧ has 5 ms = false) (hp : n = .key true → has 5 ms = false)
    (hf : (head a).k = .paren ∨ (head a).k = .stop ∨ (head a).k = .mark ∨ (head a).nl = true) :
    field cls n (flagsOf ms) a = named cls n ms a := by
  simp only [field, named]
  by_cases h : (head a).k = .paren
  · simp only [h, beq_self_eq_true, if_true]
    exact member_meant cls n true ms a ho (fun _ => hm h) hp
  · have hb : ((head a).k == .paren) = false := by simpa using h
    have hb' : ((head a).k == .stop || (head a).k == .mark || (head a).nl) = true := by
      rcases hf with hf | hf | hf | hf
      · exact (h hf).elim
      all_goals simp [hf]
    rw [hb, hb']
    simp only [Bool.false_eq_true, if_false, if_true]
    exact member_meant cls n false ms a ho (fun h => by cases h) hp

/-- The words end before what is no word of theirs. -/
theorem elem_plain {cls : Cls} {ts : List Tok} {ms : List Word} {t : Tok} {r : List Tok}
    (he : modifiers [] ts = (ms, none, t :: r)) (hb : t.k ≠ .braceL) (hp : t.k ≠ .paren) :
    classElem cls ts = if order ms false then tail cls ms ms (accOf ms) (t :: r) else .err := by
  have hb' : (t.k == K.braceL) = false := by simpa using hb
  have hp' : (t.k == K.paren) = false := by simpa using hp
  simp only [classElem, he, head, List.headD_cons, hb', hp', Option.toList_none, List.append_nil]
  cases order ms false <;> cases has 0 ms <;> simp

theorem tail_word {cls : Cls} {ms : List Word} {w : Word} {b : Bool} {r : List Tok} (ho : inOrder ms = true)
    (hr : ¬((head (dropMark r)).k = .paren ∧ (head (dropMark r)).nl = true ∧ (has 3 ms = true ∨ has 5 ms = true))) :
    tail cls ms ms (accOf ms) (⟨.word w, b⟩ :: r) = named cls (.word w) ms (dropMark r) := by
  simp only [tail, flags_same]
  generalize dropMark r = a at hr
  by_cases hf : isField false (head a) = true
  · rw [if_pos hf]
    apply field_named cls _ ms a ho
    · intro hk
      simp only [isField, hk] at hf
      have hn : (head a).nl = true := by simpa using hf
      constructor <;> apply Bool.eq_false_iff.2 <;> intro h <;> exact hr ⟨hk, hn, by simp [h]⟩
    · intro h; cases h
    · simp only [isField, Bool.not_false, Bool.true_and, Bool.or_eq_true, beq_iff_eq] at hf
      rcases hf with (hf | hf) | hf <;> simp [hf]
  · rw [if_neg hf]
    simp only [isField, Bool.not_false, Bool.true_and] at hf
    simp only [named, if_neg hf]
    by_cases hk : (head a).k = .paren
    · simp only [hk, beq_self_eq_true, if_true]
      cases h3 : has 3 ms <;> cases h5 : has 5 ms
      · simp only [Bool.or_self, Bool.false_eq_true, if_false]
        exact member_meant cls _ true ms a ho (fun _ => ⟨h3, h5⟩) (fun h => by cases h)
      all_goals (simp only [meant, allowed, contains_readonly, contains_declare, h3, h5]; simp)
    · have : ((head a).k == .paren) = false := by simpa using hk
      simp [this]

/-- Only an access modifier, or none. -/
theorem only_acc {ms : List Word} (hd : Distinct ms) (h : (ms.all fun m => m.kind == some 1) = true) : ms = [] ∨ ∃ a, ms = [.acc a] := by
  cases ms with
  | nil => exact .inl rfl
  | cons w l =>
    right
    simp only [List.all_cons, Bool.and_eq_true, beq_iff_eq] at h
    cases l with
    | nil =>
      cases w <;> first | exact ⟨_, rfl⟩ | (simp [Word.kind] at h)
    | cons v l =>
      obtain ⟨k, hk, hn⟩ := hd [w] v l rfl
      simp only [List.all_cons, Bool.and_eq_true, beq_iff_eq] at h
      have : k = 1 := by have := h.2.1; rw [hk] at this; simpa using this
      subst this
      simp [has, h.1] at hn

/-- The name is one of the six words, not read before. -/
theorem elem_own {cls : Cls} {ts : List Tok} {ms : List Word} {w : Word} {b : Bool} {r : List Tok} {k : Nat}
    (hd : Distinct ms) (he : modifiers [] ts = modifiers ms (⟨.word w, b⟩ :: r)) (hk : w.kind = some k) (hn : has k ms = false)
    (hi : isMod (has 0 ms) w (head r) = false) (hb : ¬(w = .static ∧ (head r).k = .braceL)) (ho : order ms false = inOrder ms)
    (h1 : k ≠ 1) (h0 : has 0 ms = false)
    (hp : (head (dropMark r)).k = .paren → (ms.all fun m => m.kind == some 1) = true)
    (hm : (head r).k = .mark → (head (dropMark r)).k = .paren ∨ (head (dropMark r)).k = .stop ∨ (head (dropMark r)).k = .mark ∨
      (head (dropMark r)).nl = true)
    (hs : ¬(w = .static ∧ (head r).k = .other)) :
    classElem cls ts = named cls (.word w) ms (dropMark r) := by
  have hdm : (head r).k ≠ .mark → dropMark r = r := by
    intro h
    cases r with
    | nil => rfl
    | cons t r => simp only [head, List.headD_cons] at h; simp [dropMark, h]
  by_cases hf : isField (w == .static) (head r) = true
  · have he' : modifiers [] ts = (ms, some w, r) := by
      rw [he]; simp [modifiers, hk, hn, hf]
    have ha : accOf (ms ++ [w]) = accOf ms := accOf_append (by rw [hk]; simpa using h1)
    simp only [classElem, he', Option.toList_some, ha, order_brace (.inl h0), ho, h0, flags_same]
    cases hio : inOrder ms with
    | false => simp [named_bad hio]
    | true =>
      simp only [Bool.not_true, Bool.false_eq_true, if_false]
      apply field_named cls _ ms _ hio
      · intro hq
        rcases only_acc hd (hp hq) with rfl | ⟨a, rfl⟩ <;> exact ⟨rfl, rfl⟩
      · intro h; cases h
      · by_cases hq : (head r).k = .mark
        · exact hm hq
        · rw [hdm hq]
          simp only [isField, Bool.or_eq_true, beq_iff_eq, Bool.and_eq_true] at hf
          rcases hf with (hf | hf) | hf <;> simp [hf]
  · have he' : modifiers [] ts = modifiers (ms ++ [w]) r := by
      rw [he]; simp [modifiers, hk, hn, hf]
    have hf' : isField (w == .static) (head r) = false := Bool.eq_false_iff.2 hf
    have hkd : (head r).k = .paren ∨ (head r).k = .other := by
      generalize head r = u at hi hb hf' hs
      obtain ⟨uk, nl⟩ := u
      cases w <;> cases uk <;> cases nl <;> simp_all [isMod, follows, isField, Word.kind]
    have hst : modifiers (ms ++ [w]) r = (ms ++ [w], none, r) :=
      modifiers_stop _ (fun v hv => by rcases hkd with h | h <;> rw [h] at hv <;> cases hv)
    have hnm : dropMark r = r := hdm (by rcases hkd with h | h <;> rw [h] <;> decide)
    rw [hnm] at hp ⊢
    rcases hkd with hq | hq
    · cases r with
      | nil => cases hq
      | cons t r =>
        obtain ⟨tk, nl⟩ := t
        simp only [head, List.headD_cons] at hq
        subst hq
        rw [hst] at he'
        rcases only_acc hd (hp rfl) with rfl | ⟨a, rfl⟩
        · cases w <;> first | (simp [Word.kind] at hk; done) | (exact (h1 (by cases hk; rfl)).elim) |
            (simp only [classElem, he']; rfl)
        · cases w <;> first | (simp [Word.kind] at hk; done) | (exact (h1 (by cases hk; rfl)).elim) |
            (cases a <;> simp only [classElem, he'] <;> rfl)
    · have ht : ∀ seen l am, tail cls seen l am r = .err := by
        intro seen l am
        cases r with
        | nil => rfl
        | cons t r => simp only [head, List.headD_cons] at hq; simp [tail, hq]
      have hw : w ≠ .static := fun h => hs ⟨h, hq⟩
      have hnl : (head r).nl = false := by
        have hws : (w == Word.static) = false := by simpa using hw
        simpa [isField, hq, hws] using hf'
      rw [hst] at he'
      simp [classElem, he', ht, hq, named, hnl]

/-- The two readings agree where no exception is met. -/
theorem elem_want {cls : Cls} {ts : List Tok} (hr : Regular ts = true) : classElem cls ts = want cls ts := by
  have hsp := mods_split ts [] Distinct.nil
  have e0 : has 0 [] = false := rfl
  rw [e0] at hsp
  simp only [List.nil_append] at hsp
  rcases hsp with ⟨hd, he⟩ | ⟨hb, ht⟩
  · have hstop := split_stop ts false
    have hbr := split_brace ts false
    simp only [Regular, Bool.and_eq_true, afterMark_eq] at hr
    obtain ⟨hoc, hr⟩ := hr
    have ho := order_eq hd hoc
    simp only [want, afterMark_eq]
    generalize (split false ts).1 = ms at *
    generalize (split false ts).2 = r at *
    cases r with
    | nil => simp [classElem, he, modifiers, tail, head]
    | cons t r =>
      obtain ⟨k, nl⟩ := t
      have plain : (∀ w, k = .word w → ∀ j, w.kind = some j → has j ms = true) → k ≠ .braceL → k ≠ .paren →
          classElem cls ts = if inOrder ms then tail cls ms ms (accOf ms) (⟨k, nl⟩ :: r) else .err := by
        intro hw hb hp
        rw [← ho]
        apply elem_plain _ hb hp
        rw [he]
        exact modifiers_stop ms hw
      cases k with
      | word w =>
        simp only at hr ⊢
        have hi := hstop w nl r rfl
        rw [Bool.false_or] at hi
        have hword : (∀ j, w.kind = some j → has j ms = true) →
            ¬((head (dropMark r)).k = .paren ∧ (head (dropMark r)).nl = true ∧ (has 3 ms = true ∨ has 5 ms = true)) →
            ¬(w = .static ∧ (head r).k = .braceL ∧ (head r).nl = true) →
            classElem cls ts = if (w == .static && (head r).k == .braceL) = true then if ms.isEmpty = true then .block else .err
              else named cls (.word w) ms (dropMark r) := by
          intro hw hq hz
          rw [plain (fun v hv => by cases hv; exact hw) (by simp) (by simp)]
          by_cases hsb : (w == .static && (head r).k == .braceL) = true
          · rw [if_pos hsb]
            simp only [Bool.and_eq_true, beq_iff_eq] at hsb
            obtain ⟨rfl, hsb⟩ := hsb
            have hne : ms.isEmpty = false := by
              cases ms with
              | nil => cases hw 0 rfl
              | cons _ _ => rfl
            have hdm : dropMark r = r := by
              cases r with
              | nil => rfl
              | cons t r => simp only [head, List.headD_cons] at hsb; simp [dropMark, hsb]
            have hnl : (head r).nl = false := Bool.eq_false_iff.2 fun h => hz ⟨rfl, hsb, h⟩
            simp [hne, tail, hdm, isField, hsb, hnl]
          · rw [if_neg hsb]
            cases hio : inOrder ms with
            | false => simp [named_bad hio]
            | true =>
              rw [if_pos rfl]
              exact tail_word hio hq
        have hneg : (!((head (dropMark r)).k == K.paren && (head (dropMark r)).nl && (has 3 ms || has 5 ms))) = true →
            ¬((head (dropMark r)).k = .paren ∧ (head (dropMark r)).nl = true ∧ (has 3 ms = true ∨ has 5 ms = true)) := by
          rintro h ⟨h1, h2, h3 | h3⟩ <;> simp [h1, h2, h3] at h
        cases hk : w.kind with
        | none =>
          rw [hk] at hr
          exact hword (fun j hj => by rw [hk] at hj; cases hj) (hneg hr) (by rintro ⟨rfl, _⟩; cases hk)
        | some k =>
          rw [hk] at hr
          simp only at hr
          cases hh : has k ms with
          | true =>
            rw [if_pos hh, Bool.and_eq_true] at hr
            refine hword (fun j hj => by rw [hk] at hj; cases hj; exact hh) (hneg hr.1) ?_
            rintro ⟨h1, h2, h3⟩
            have := hr.2
            simp [h1, h2, h3] at this
          | false =>
            rw [if_neg (by rw [hh]; decide)] at hr
            by_cases hsb : (w == .static && (head r).k == .braceL) = true
            · rw [if_pos hsb]
              simp only [Bool.and_eq_true, beq_iff_eq] at hsb
              obtain ⟨rfl, hsb⟩ := hsb
              cases hk
              have hf : isField true (head r) = false ∨ (head r).nl = true := by
                simp [isField, hsb]
              have he' : modifiers [] ts = (ms ++ [.static], none, r) := by
                rw [he]
                have : isField true (head r) = false := by simp [isField, hsb]
                simp only [modifiers, Word.kind, hh, beq_self_eq_true, this, Bool.false_eq_true, if_false]
                exact modifiers_stop _ (fun v hv => by rw [hsb] at hv; cases hv)
              simp only [classElem, he', hsb, beq_self_eq_true]
              cases ms with
              | nil => rfl
              | cons v l =>
                obtain ⟨j, hj, _⟩ := hd [] v l rfl
                have hv : v ≠ .static := by
                  rintro rfl
                  simp [has, Word.kind] at hh
                have : order (v :: l ++ [.static]) true = false :=
                  order_block (by rw [has_append]; simp [has, Word.kind]) (w := v) (by simp) hj hv
                rw [this]; rfl
            · rw [if_neg (by simpa using hsb)] at hr
              rw [if_neg hsb]
              simp only [Bool.and_eq_true, Bool.or_eq_true, bne_iff_ne, ne_eq, Bool.not_eq_true', beq_iff_eq] at hr
              obtain ⟨⟨⟨⟨h1, h0⟩, hp⟩, hm⟩, hs⟩ := hr
              refine elem_own hd he hk hh hi ?_ ho h1 h0 ?_ ?_ ?_
              · simpa using hsb
              · intro h; rcases hp with hp | hp
                · exact (hp h).elim
                · exact hp
              · intro h
                rcases hm with (((hm | hm) | hm) | hm) | hm
                · exact (hm h).elim
                all_goals simp [hm]
              · rintro ⟨h, h'⟩
                simp [h, h'] at hs
      | key p =>
        simp only [Bool.and_eq_true] at hr
        rw [plain (by intro w h; cases h) (by simp) (by simp)]
        cases hio : inOrder ms with
        | false => simp [named_bad hio]
        | true =>
          simp only [if_true, tail, flags_same]
          apply field_named cls _ ms _ hio
          · intro h
            have := hr.1
            simp only [h, beq_self_eq_true, if_true, Bool.and_eq_true, Bool.not_eq_true'] at this
            exact this
          · intro h
            cases h
            simpa using hr.2
          · have := hr.1
            by_cases h : (head (dropMark r)).k = .paren
            · exact .inl h
            · right
              rw [if_neg (by simpa using h)] at this
              simpa [or_assoc] using this
      | star =>
        simp only at hr ⊢
        rw [plain (by intro w h; cases h) (by simp) (by simp)]
        have h5 : has 5 ms = false := by simpa using hr
        cases hio : inOrder ms with
        | false => simp [meant_bad hio]
        | true =>
          simp only [if_true, tail, flags_same]
          cases h3 : has 3 ms with
          | true => simp only [meant, allowed, contains_readonly, h3]; simp
          | false =>
            simp only [Bool.false_eq_true, if_false]
            exact member_meant cls _ true ms r hio (fun _ => ⟨h3, h5⟩) (fun h => by cases h)
      | paren => cases hr
      | braceL =>
        have he' : modifiers [] ts = (ms, none, ⟨.braceL, nl⟩ :: r) := by
          rw [he]; exact modifiers_stop ms (fun w h => by cases h)
        simp only [classElem, he', head, List.headD_cons, beq_self_eq_true, tail]
        cases h0 : has 0 ms with
        | false => simp
        | true =>
          have hne : ms ≠ [] := by rintro rfl; cases h0
          obtain ⟨w, hw, hw'⟩ := hbr nl r rfl hne
          obtain ⟨l, l', hl⟩ := List.append_of_mem hw
          obtain ⟨j, hj, _⟩ := hd l w l' hl
          simp [order_block h0 hw hj hw']
      | _ =>
        simp only
        rw [plain (by intro w h; cases h) (by simp) (by simp)]
        simp [tail]
  · rw [elem_twice ht, want_bad hb]

end Mole.Parser.Mods
