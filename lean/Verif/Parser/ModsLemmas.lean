import Verif.Parser.ModsSpec
/-! # Modifiers of class members (lemmas) -/
namespace Mole.Parser.Mods

/-- The words that are modifiers. -/
def allWords : List Word := [.static, .acc .pub, .acc .pri, .acc .pro, .abstract, .readonly, .override, .declare]

theorem mem_allWords {w : Word} {k : Nat} (h : w.kind = some k) : w ∈ allWords := by
  cases w with
  | acc a => cases a <;> decide
  | name n => cases h
  | _ => decide

/-- No kind of modifier twice, and nothing but modifiers. -/
def Distinct (seen : List Word) : Prop := ∀ l w r, seen = l ++ w :: r → ∃ k, w.kind = some k ∧ has k l = false

/-- All the ways to go on, looked at one after another. -/
def chk (P : List Word → Bool) : Nat → List Word → Bool
  | 0, _ => false
  | n + 1, l => P l && allWords.all fun w => match w.kind with
      | some k => has k l || chk P n (l ++ [w])
      | none => true

theorem chk_sound (P : List Word → Bool) : ∀ (n : Nat) (l r : List Word), chk P n l = true → Distinct (l ++ r) → P (l ++ r) = true
  | 0, _, _, h, _ => by cases h
  | n + 1, l, [], h, _ => by
    rw [chk, Bool.and_eq_true] at h
    simpa using h.1
  | n + 1, l, w :: r, h, hd => by
    rw [chk, Bool.and_eq_true, List.all_eq_true] at h
    obtain ⟨k, hk, hn⟩ := hd l w r rfl
    have := h.2 w (mem_allWords hk)
    rw [hk] at this
    simp only [hn, Bool.false_or] at this
    have e : l ++ w :: r = (l ++ [w]) ++ r := by simp
    rw [e] at hd ⊢
    exact chk_sound P n _ r this hd

/-- What the order of the modifiers comes to. -/
def orderSame (ms : List Word) : Bool := !orderChecked ms || order ms false == inOrder ms

theorem orderSame_all : chk orderSame 9 [] = true := by decide +kernel

theorem order_eq {ms : List Word} (hd : Distinct ms) (h : orderChecked ms = true) : order ms false = inOrder ms := by
  have := chk_sound orderSame 9 [] ms orderSame_all hd
  simp only [List.nil_append, orderSame, h, Bool.not_true, Bool.false_or, beq_iff_eq] at this
  exact this


/-! ## Which modifiers there are -/

theorem has_append (k : Nat) (l r : List Word) : has k (l ++ r) = (has k l || has k r) := by
  simp [has]

theorem has_cons (k : Nat) (w : Word) (r : List Word) : has k (w :: r) = (w.kind == some k || has k r) := by
  simp [has]

theorem contains_abstract (l : List Word) : l.contains .abstract = has 2 l := by
  induction l with
  | nil => rfl
  | cons w l ih => rw [has_cons, ← ih, List.contains_cons]; congr 1; cases w <;> rfl

theorem contains_readonly (l : List Word) : l.contains .readonly = has 3 l := by
  induction l with
  | nil => rfl
  | cons w l ih => rw [has_cons, ← ih, List.contains_cons]; congr 1; cases w <;> rfl

theorem contains_override (l : List Word) : l.contains .override = has 4 l := by
  induction l with
  | nil => rfl
  | cons w l ih => rw [has_cons, ← ih, List.contains_cons]; congr 1; cases w <;> rfl

theorem contains_declare (l : List Word) : l.contains .declare = has 5 l := by
  induction l with
  | nil => rfl
  | cons w l ih => rw [has_cons, ← ih, List.contains_cons]; congr 1; cases w <;> rfl

theorem contains_static (l : List Word) : l.contains .static = has 0 l := by
  induction l with
  | nil => rfl
  | cons w l ih => rw [has_cons, ← ih, List.contains_cons]; congr 1; cases w <;> rfl

theorem access_eq (l : List Word) : access l = accOf l := by
  induction l with
  | nil => rfl
  | cons w l ih => cases w <;> simp only [access, List.findSome?_cons, accOf] <;> exact ih

theorem said_eq (l : List Word) : said l = flagsOf l := by
  simp only [said, flagsOf, contains_static, contains_abstract, contains_readonly, contains_override, contains_declare, access_eq]

theorem afterMark_eq (l : List Tok) : afterMark l = dropMark l := by
  cases l with
  | nil => rfl
  | cons t l =>
    obtain ⟨k, nl⟩ := t
    cases k <;> rfl

theorem accOf_append {l : List Word} {w : Word} (h : w.kind ≠ some 1) : accOf (l ++ [w]) = accOf l := by
  induction l with
  | nil => cases w <;> first | rfl | exact (h rfl).elim
  | cons v l ih => cases v <;> simp only [List.cons_append, accOf] <;> exact ih

theorem Distinct.nil : Distinct [] := fun l w r h => by cases l <;> cases h

theorem Distinct.snoc {l : List Word} {w : Word} {k : Nat} (hl : Distinct l) (hk : w.kind = some k) (hn : has k l = false) :
    Distinct (l ++ [w]) := by
  intro a v r h
  rcases List.eq_nil_or_concat r with hr | ⟨r', x, hr⟩
  · subst hr
    have := List.append_inj' h rfl
    simp only [List.cons.injEq, and_true] at this
    obtain ⟨rfl, rfl⟩ := this
    exact ⟨k, hk, hn⟩
  · subst hr
    have h' : l ++ [w] = (a ++ v :: r') ++ [x] := by simpa using h
    exact hl a v r' (List.append_inj' h' rfl).1

theorem before_same : ∀ {v w : Word} {k : Nat}, v.kind = some k → w.kind = some k → before v w = false := by
  intro v w k hv hw
  have h : v.kind = w.kind := hv.trans hw.symm
  cases v <;> cases w <;> first | rfl | (exact absurd h (by simp [Word.kind])) | (simp [Word.kind] at hv)

theorem inOrder_dup {w : Word} {k : Nat} (hk : w.kind = some k) (r : List Word) : ∀ {l : List Word}, has k l = true →
    inOrder (l ++ w :: r) = false
  | [], h => by cases h
  | v :: l, h => by
    rw [has_cons, Bool.or_eq_true, beq_iff_eq] at h
    rw [List.cons_append, inOrder]
    rcases h with h | h
    · have : (l ++ w :: r).all (before v) = false := by
        rw [List.all_eq_false]
        exact ⟨w, by simp, by rw [before_same h hk]; decide⟩
      rw [this, Bool.false_and]
    · rw [inOrder_dup hk r h, Bool.and_false]

/-! ## The two readings of the modifiers -/

theorem isMod_kind {st : Bool} {w : Word} {t : Tok} (h : isMod st w t = true) : ∃ k, w.kind = some k := by
  cases w <;> first | exact ⟨_, rfl⟩ | (simp [isMod] at h)

theorem isMod_isField {st : Bool} {w : Word} {t : Tok} (h : isMod st w t = true) : isField (w == .static) t = false := by
  obtain ⟨k, nl⟩ := t
  cases w <;> cases k <;> cases nl <;> first | rfl | (simp [isMod, follows] at h)

theorem isMod_nl {st : Bool} {w : Word} {t : Tok} (h : isMod st w t = true) (hw : w ≠ .static) : follows t.k = true ∧ t.nl = false := by
  cases w <;> first | exact (hw rfl).elim | (simpa [isMod] using h)

/-- The code stops at a word it has already seen, and something that can follow a modifier is behind it. -/
def Twice (x : List Word × Option Word × List Tok) : Prop :=
  ∃ sn w b u r, x = (sn, none, ⟨.word w, b⟩ :: u :: r) ∧ follows u.k = true ∧ u.nl = false

theorem mods_split : ∀ (ts : List Tok) (seen : List Word), Distinct seen →
    (Distinct (seen ++ (split (has 0 seen) ts).1) ∧
      modifiers seen ts = modifiers (seen ++ (split (has 0 seen) ts).1) (split (has 0 seen) ts).2) ∨
    (inOrder (seen ++ (split (has 0 seen) ts).1) = false ∧ Twice (modifiers seen ts))
  | [], seen, hd => .inl ⟨by simpa [split] using hd, by simp [split]⟩
  | ⟨k, b⟩ :: r, seen, hd => by
    cases k with
    | word w =>
      cases hm : isMod (has 0 seen) w (head r) with
      | false => exact .inl ⟨by simpa [split, hm] using hd, by simp [split, hm]⟩
      | true =>
        obtain ⟨k, hk⟩ := isMod_kind hm
        have hs : split (has 0 seen) (⟨.word w, b⟩ :: r) =
            (w :: (split (has 0 seen || w == .static) r).1, (split (has 0 seen || w == .static) r).2) := by
          simp [split, hm]
        have h0 : (has 0 seen || w == .static) = has 0 (seen ++ [w]) := by
          rw [has_append]; congr 1
          cases w <;> rfl
        rw [hs, h0]
        cases hh : has k seen with
        | true =>
          refine .inr ⟨inOrder_dup hk _ hh, ?_⟩
          have hw : w ≠ .static := by
            rintro rfl
            cases hk
            simp [isMod, hh] at hm
          obtain ⟨hf, hn⟩ := isMod_nl hm hw
          cases r with
          | nil => simp [head, follows] at hf
          | cons u r =>
            refine ⟨seen, w, b, u, r, ?_, hf, hn⟩
            simp [modifiers, hk, hh]
        | false =>
          have he : modifiers seen (⟨.word w, b⟩ :: r) = modifiers (seen ++ [w]) r := by
            simp [modifiers, hk, hh, isMod_isField hm]
          have := mods_split r (seen ++ [w]) (hd.snoc hk hh)
          rw [List.append_assoc, List.singleton_append] at this
          rw [he]
          exact this
    | _ => exact .inl ⟨by simpa [split] using hd, by simp [split]⟩

/-- Why the specification stops. -/
theorem split_stop : ∀ (ts : List Tok) (st : Bool) (w : Word) (b : Bool) (r : List Tok), (split st ts).2 = ⟨.word w, b⟩ :: r →
    isMod (st || has 0 (split st ts).1) w (head r) = false
  | [], st, w, b, r, h => by simp [split] at h
  | ⟨k, b'⟩ :: r', st, w, b, r, h => by
    cases k with
    | word v =>
      cases hm : isMod st v (head r') with
      | false =>
        simp only [split, hm, Bool.false_eq_true, if_false, List.cons.injEq, Tok.mk.injEq, K.word.injEq] at h ⊢
        obtain ⟨⟨rfl, _⟩, rfl⟩ := h
        simpa [has] using hm
      | true =>
        simp only [split, hm, if_true] at h ⊢
        have := split_stop r' _ w b r h
        rw [has_cons]
        have e : (v.kind == some 0) = (v == .static) := by cases v <;> rfl
        rw [e, ← Bool.or_assoc]
        exact this
    | _ => simp [split] at h

/-- `{` is never right behind `static`. -/
theorem split_brace : ∀ (ts : List Tok) (st : Bool) (b : Bool) (r : List Tok), (split st ts).2 = ⟨.braceL, b⟩ :: r →
    (split st ts).1 ≠ [] → ∃ w ∈ (split st ts).1, w ≠ .static
  | [], st, b, r, h, _ => by simp [split] at h
  | ⟨k, b'⟩ :: r', st, b, r, h, hn => by
    cases k with
    | word v =>
      cases hm : isMod st v (head r') with
      | false => simp [split, hm] at h
      | true =>
        simp only [split, hm, if_true] at h hn ⊢
        cases hs : (split (st || v == .static) r').1 with
        | nil =>
          refine ⟨v, by simp, ?_⟩
          rintro rfl
          cases r' with
          | nil => simp [split] at h
          | cons t r'' =>
            obtain ⟨k, nl⟩ := t
            cases k <;> simp [split] at h hs <;> try simp [isMod, follows, head] at hm
            split at h <;> simp_all
        | cons x l =>
          have hne : (split (st || v == .static) r').1 ≠ [] := by rw [hs]; simp
          obtain ⟨w, hw, hw'⟩ := split_brace r' _ b r h hne
          exact ⟨w, by rw [hs] at hw; exact .tail _ hw, hw'⟩
    | _ => exact (hn (by simp [split])).elim

theorem modifiers_stop (seen : List Word) {r : List Tok} (h : ∀ w, (head r).k = .word w → ∀ k, w.kind = some k → has k seen = true) :
    modifiers seen r = (seen, none, r) := by
  cases r with
  | nil => rfl
  | cons t r =>
    obtain ⟨k, nl⟩ := t
    cases k with
    | word w =>
      simp only [modifiers]
      split
      · rename_i k hk
        rw [h w rfl k hk]; simp
      · rfl
    | _ => rfl

end Mole.Parser.Mods
