import Verif.Lexer.SlashSpec
/-! # Lemmas about slashes -/

namespace Mole.Lexer.Slash

instance (t : T) (w : W) : Decidable (Misread t w) := by unfold Misread; infer_instance

/-- The decision after `t` is right. -/
def Right (t : T) (w : W) : Prop := (beforeExpr t = true ↔ w = .operand) ↔ ¬ Misread t w

instance (t : T) (w : W) : Decidable (Right t w) := by unfold Right; infer_instance

theorem atom_right (t : T) : atom t = true → Right t .operator := by cases t <;> decide
theorem before_right (t : T) : before t = true → Right t .operand := by cases t <;> decide
theorem between_right (t : T) : between t = true → Right t .operand := by cases t <;> decide
theorem word_right (t : T) : word t = true → Right t .operator := by cases t <;> decide

theorem decide_step {w₀ t w} (h : Step w₀ t w) (hw : w = .operand ∨ w = .operator) : Right t w := by
  induction h with
  | newline _ _ _ ih => exact ih hw
  | atom _ h => exact atom_right _ h
  | before _ h => exact before_right _ h
  | between h => exact between_right _ h
  | member h =>
    rcases h with rfl | rfl | h
    · decide
    · decide
    · exact word_right _ h
  | semi _ h => rcases h with rfl | rfl <;> first | decide | simp at hw
  | opening _ h | again h => rcases h with rfl | rfl | rfl | rfl <;> decide
  | after h | optional h | forOf h => rcases h with rfl | rfl <;> decide
  | closing _ h => rcases h with rfl | rfl | rfl <;> decide
  | arg h => rcases h with rfl | rfl | rfl | rfl | rfl <;> decide
  | _ => first | decide | simp at hw

theorem not_illegal {w₀ t w} (h : Step w₀ t w) : t ≠ .illegal := by
  induction h with
  | newline _ _ _ ih => exact ih
  | atom _ h => rintro rfl; simp [atom] at h
  | before _ h => rintro rfl; simp [before] at h
  | between h => rintro rfl; simp [between] at h
  | member h => rintro rfl; simp [word] at h
  | key h => rintro rfl; simp [word] at h
  | _ => first | (rintro rfl; simp_all) | simp

theorem atom_slash (t : T) : atom t = true → slashed t = true → t = .regexp := by cases t <;> decide
theorem before_slash (t : T) : before t = true → slashed t = false := by cases t <;> decide
theorem between_slash (t : T) : between t = true → slashed t = true → t = .div ∨ t = .assignDiv := by cases t <;> decide
theorem word_slash (t : T) : word t = true → slashed t = false := by cases t <;> decide
theorem of_slash (t : T) : slashed t = true → t = .regexp ∨ t = .div ∨ t = .assignDiv := by cases t <;> decide

theorem slash_state {w t w'} (h : Step w t w') (hs : slashed t = true) :
    (w = .operand ∨ w = .stmt) ∧ t = .regexp ∨ w = .operator ∧ (t = .div ∨ t = .assignDiv) := by
  have ho := of_slash t hs
  cases h with
  | newline _ h _ => simp_all
  | atom hw h => exact .inl ⟨hw, atom_slash _ h hs⟩
  | before _ h => simp [before_slash _ h] at hs
  | between h => exact .inr ⟨rfl, between_slash _ h hs⟩
  | member h => 
    rcases h with rfl | rfl | h
    · simp [slashed] at hs
    · simp [slashed] at hs
    · simp [word_slash _ h] at hs
  | key h => simp [word_slash _ h] at hs
  | _ => rcases ho with h | h | h <;> simp_all

/-- `p` has just been read and `w` comes next. -/
def Reach (p : T) (w : W) : Prop := p = .illegal ∧ w = .stmt ∨ ∃ w₀, Step w₀ p w

theorem scan_raw {p w t w' b} (hr : Reach p w) (h : Step w t w')
    (hbm : slashed t = true → (b = true ↔ w = .stmt) ∧ ¬ Misread p w) : scan b p (raw t) = t := by
  by_cases hs : slashed t = true
  · obtain ⟨hb, hm⟩ := hbm hs
    clear hbm
    have hd : w = .operand ∨ w = .operator → (beforeExpr p = true ↔ w = .operand) ∧ p ≠ .illegal := by
      intro hw
      rcases hr with ⟨rfl, rfl⟩ | ⟨w₀, h₀⟩
      · simp at hw
      · exact ⟨(decide_step h₀ hw).mpr hm, not_illegal h₀⟩
    rcases slash_state h hs with ⟨rfl | rfl, rfl⟩ | ⟨rfl, rfl | rfl⟩ <;> simp at hb hd <;> simp [raw, scan, aheadIsRegexp, hb, hd]
  · have : raw t = .tok t := by revert hs; cases t <;> simp [raw, slashed]
    rw [this, scan]

/-- The state of the lexer, with `done` read and `rest` to come. -/
structure Inv (s : St) (n : Nat) (stale : Bool) (p : T) (w : W) (rest : List (T × Bool)) : Prop where
  len : s.buf.length = n
  last : s.buf ≠ [] → s.buf.getLast? = some p
  prt : stale = false → s.prt = p
  src : s.src = rest.map fun x => raw x.1
  prog : Program p w rest
  reach : Reach p w

theorem inv_advance {s n p w t b rest} (h : Inv s n false p w ((t, b) :: rest)) :
    ∃ w', Inv (advance b s) (n + 1) false t w' rest ∧ (advance b s).log = s.log ++ [t] ∧ scan b s.prt (raw t) = t := by
  obtain ⟨hl, hla, hp, hsrc, hprog, hr⟩ := h
  cases hprog with
  | cons hst hb hprog =>
    rename_i w'
    have hsc := scan_raw hr hst hb
    have hp := hp rfl
    simp only [List.map_cons] at hsrc
    refine ⟨w', ⟨?_, ?_, ?_, ?_, hprog, .inr ⟨w, hst⟩⟩, ?_, ?_⟩ <;>
      simp [advance, hsrc, hp, hsc, hl]

theorem prefix_cons {α β} {b : β} {l : List β} {f : α → β} {r : List α} (h : b :: l <+: r.map f) :
    ∃ x xs, r = x :: xs ∧ f x = b ∧ l <+: xs.map f := by
  cases r with
  | nil => simp at h
  | cons x xs =>
    rw [List.map_cons, List.cons_prefix_cons] at h
    exact ⟨x, xs, rfl, h.1.symm, h.2⟩

theorem run_log {n st ops bs} (hc : Calls n st ops bs) : ∀ {s p w rest}, Inv s n st p w rest →
    bs <+: rest.map Prod.snd → (run s ops).log = s.log ++ (rest.take bs.length).map Prod.fst := by
  induction hc with
  | nil n st => intros; simp [run]
  | peek0 _ ih | stmt0 _ ih =>
    intro s p w rest hi hb
    obtain ⟨⟨t, b⟩, xs, rfl, rfl, hb'⟩ := prefix_cons hb
    obtain ⟨w', hi', hlog, _⟩ := inv_advance hi
    have he : s.buf = [] := List.length_eq_zero_iff.mp hi.len
    simp only [run, step, he, if_true]
    rw [ih hi' hb', hlog]
    simp
  | peek _ ih | stmt _ ih =>
    intro s p w rest hi hb
    have he : s.buf ≠ [] := by intro h; have := hi.len; simp [h] at this
    simp only [run, step, he, if_false]
    exact ih hi hb
  | grow _ ih =>
    intro s p w rest hi hb
    obtain ⟨⟨t, b⟩, xs, rfl, rfl, hb'⟩ := prefix_cons hb
    obtain ⟨w', hi', hlog, _⟩ := inv_advance hi
    simp only [run, step]
    rw [ih hi' hb', hlog]
    simp
  | two0 _ ih =>
    intro s p w rest hi hb
    obtain ⟨⟨t, b⟩, xs', rfl, rfl, hb'⟩ := prefix_cons hb
    obtain ⟨⟨t', b'⟩, xs, rfl, rfl, hb''⟩ := prefix_cons hb'
    obtain ⟨w', hi', hlog, _⟩ := inv_advance hi
    obtain ⟨w'', hi'', hlog', _⟩ := inv_advance hi'
    have h0 := hi.len; have h1 := hi'.len
    simp only [run, step, h0, h1]
    simp only [show (0:Nat) < 2 from by decide, show 0 + 1 < 2 from by decide, if_true, h1]
    rw [ih hi'' hb'', hlog', hlog]
    simp
  | two1 _ ih =>
    intro s p w rest hi hb
    obtain ⟨⟨t, b⟩, xs, rfl, rfl, hb'⟩ := prefix_cons hb
    obtain ⟨w', hi', hlog, _⟩ := inv_advance hi
    have h0 := hi.len; have h1 := hi'.len
    simp only [run, step, h0]
    simp only [show (1:Nat) < 2 from by decide, if_true, h1, show ¬ (1 + 1 < 2) from by decide, if_false]
    rw [ih hi' hb', hlog]
    simp
  | two _ ih =>
    intro s p w rest hi hb
    have h0 := hi.len
    have h1 : ¬ s.buf.length < 2 := by omega
    simp only [run, step, h1, if_false]
    exact ih hi hb
  | next0 _ ih =>
    intro s p w rest hi hb
    obtain ⟨⟨t, b⟩, xs, rfl, rfl, hb'⟩ := prefix_cons hb
    obtain ⟨w', hi', hlog, hsc⟩ := inv_advance hi
    have he : s.buf = [] := List.length_eq_zero_iff.mp hi.len
    have hsrc := hi.src
    simp only [List.map_cons] at hsrc
    simp only [run, step, he, hsrc]
    rw [hsc]
    have := ih (s := { buf := [], prt := t, src := xs.map fun x => raw x.1, log := s.log ++ [t] }) (p := t) (w := w') (rest := xs)
      ⟨by simp, by simp, by simp, rfl, hi'.prog, hi'.reach⟩ hb'
    rw [this]
    simp
  | next1 _ ih =>
    intro s p w rest hi hb
    match hbuf : s.buf, hi.len with
    | [t], _ =>
      have hlast := hi.last (by simp [hbuf])
      simp [hbuf] at hlast
      simp only [run, step, hbuf]
      exact ih (s := { s with buf := [], prt := t }) (p := p) (w := w) (rest := rest)
        ⟨by simp, by simp, by simp [hlast], hi.src, hi.prog, hi.reach⟩ hb
  | next _ ih =>
    intro s p w rest hi hb
    match hbuf : s.buf, hi.len with
    | t :: u :: r, hl =>
      have hlast := hi.last (by simp [hbuf])
      simp only [run, step, hbuf]
      exact ih (s := { s with buf := u :: r, prt := t }) (p := p) (w := w) (rest := rest)
        ⟨by simpa using hl, by rw [hbuf] at hlast; simpa using hlast, by simp, hi.src, hi.prog, hi.reach⟩ hb

end Mole.Lexer.Slash
