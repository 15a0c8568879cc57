import Verif.Lexer.Buf
/-!
# Property C05: the lookahead buffer is a FIFO queue
-/
namespace Mole.Lexer

variable {T : Type}

/-! ## Specification: a list of at most five tokens. -/

/-- One step on the abstract queue; `none` is a refusal (full or empty). -/
def qstep (q : List T) : BufOp T → Option (Option T × List T)
  | .advance t => if q.length < 5 then some (some t, q ++ [t]) else none
  | .eof t => some (some t, q)
  | .read => match q with
    | [] => none
    | t :: q' => some (some t, q')
  | .cur => some (q.head?, q)
  | .second => some (q[1]?, q)

def qrun (q : List T) : List (BufOp T) → Option (List (Option T) × List T)
  | [] => some ([], q)
  | op :: ops =>
    match qstep q op with
    | none => none
    | some (o, q') => (qrun q' ops).map fun p => (o :: p.1, p.2)

/-- The end of the source is never scanned while five tokens are buffered. -/
def eofHasRoom (q : List T) : List (BufOp T) → Prop
  | [] => True
  | op :: ops =>
    (match op with
     | .eof _ => q.length < 5
     | _ => True) ∧
    match qstep q op with
    | none => True
    | some (_, q') => eofHasRoom q' ops

/-! ## Refinement -/

/-- The tokens buffered, next to be read first. -/
def contents (b : TB T) : List T := (List.range b.len).map fun i => b.buf ((b.r + i) % 5)

structure Inv (b : TB T) : Prop where
  len : b.len ≤ 5
  r : b.r < 5
  w : b.w = (b.r + b.len) % 5

theorem contents_length (b : TB T) : (contents b).length = b.len := by simp [contents]

theorem incR_eq (b : TB T) (h : b.r < 5) : b.incR = (b.r + 1) % 5 := by
  by_cases h5 : b.r + 1 = 5
  · simp [TB.incR, bufLen, h5]
  · simp [TB.incR, bufLen, h5]; omega

theorem incW_eq (b : TB T) (h : b.w < 5) : b.incW = (b.w + 1) % 5 := by
  by_cases h5 : b.w + 1 = 5
  · simp [TB.incW, bufLen, h5]
  · simp [TB.incW, bufLen, h5]; omega

theorem Inv.fill {b : TB T} (h : Inv b) (t : T) (hl : b.len < 5) :
    Inv (b.fill t) ∧ contents (b.fill t) = contents b := by
  refine ⟨⟨h.len, h.r, h.w⟩, ?_⟩
  simp only [contents, TB.fill]
  apply List.map_congr_left
  intro i hi
  have hi : i < b.len := by simpa using hi
  have := h.w; have := h.r
  rw [if_neg (by omega)]

theorem Inv.advance {b : TB T} (h : Inv b) (t : T) (hl : b.len < 5) :
    ∃ b', b.advance t = some b' ∧ Inv b' ∧ contents b' = contents b ++ [t] := by
  have hr := h.r
  have hw := h.w
  obtain ⟨_, h2⟩ := h.fill t hl
  refine ⟨{ b.fill t with len := b.len + 1, w := b.incW },
    by simp [TB.advance, TB.write, TB.fill, bufLen, hl, TB.incW], ⟨?_, hr, ?_⟩, ?_⟩
  · exact hl
  · rw [incW_eq b (by omega)]
    simp only [TB.fill]; omega
  · rw [← h2]
    simp only [contents, TB.fill, List.range_succ, List.map_append, List.map_cons, List.map_nil]
    rw [← hw]; simp

theorem Inv.read {b : TB T} (h : Inv b) :
    match contents b with
    | [] => b.read = none
    | t :: q => ∃ b', b.read = some (t, b') ∧ Inv b' ∧ contents b' = q := by
  have hr := h.r
  have hl := h.len
  have hw := h.w
  cases hn : b.len with
  | zero => simp [contents, hn, TB.read]
  | succ n =>
    have : contents b = b.buf b.r :: (List.range n).map fun i => b.buf ((b.r + (i + 1)) % 5) := by
      simp only [contents, hn, List.range_succ_eq_map, List.map_cons, List.map_map]
      congr 1
      rw [Nat.add_zero, Nat.mod_eq_of_lt hr]
    rw [this]
    refine ⟨_, by simp only [TB.read]; rw [if_pos (by omega)], ⟨?_, ?_, ?_⟩, ?_⟩
    · simp only; omega
    · simp only; rw [incR_eq b hr]; omega
    · simp only; rw [incR_eq b hr]; omega
    · simp only [contents, hn, Nat.add_sub_cancel]
      apply List.map_congr_left
      intro i _
      congr 1
      rw [incR_eq b hr]; omega

theorem contents_get (b : TB T) (i : Nat) :
    (contents b)[i]? = if i < b.len then some (b.buf ((b.r + i) % 5)) else none := by
  simp only [contents, List.getElem?_map]
  split
  · rename_i hi; simp [hi]
  · rename_i hi; simp; omega

theorem run_refines {b : TB T} (h : Inv b) (ops : List (BufOp T))
    (he : eofHasRoom (contents b) ops) :
    (b.run ops).map (fun p => (p.1, contents p.2)) = qrun (contents b) ops := by
  induction ops generalizing b with
  | nil => rfl
  | cons op ops ih =>
    have key : (b.step op = none ∧ qstep (contents b) op = none) ∨
        ∃ o b', b.step op = some (o, b') ∧ Inv b' ∧ qstep (contents b) op = some (o, contents b') := by
      cases op with
      | advance t =>
        by_cases hl : b.len < 5
        · obtain ⟨b', h1, h2, h3⟩ := h.advance t hl
          right
          refine ⟨some t, b', by simp [TB.step, h1], h2, ?_⟩
          simp [qstep, contents_length, hl, h3]
        · left
          refine ⟨?_, ?_⟩
          · simp [TB.step, TB.advance, TB.write, TB.fill, bufLen, hl]
          · simp [qstep, contents_length, hl]
      | eof t =>
        right
        have hl : b.len < 5 := by
          have := he.1
          simpa [contents_length] using this
        obtain ⟨h1, h2⟩ := h.fill t hl
        exact ⟨some t, b.fill t, rfl, h1, by simp [qstep, h2]⟩
      | read =>
        have := h.read
        cases hc : contents b with
        | nil => rw [hc] at this; left; simp [TB.step, qstep, this]
        | cons t q =>
          rw [hc] at this
          obtain ⟨b', h1, h2, h3⟩ := this
          right
          exact ⟨some t, b', by simp [TB.step, h1], h2, by simp [qstep, h3]⟩
      | cur =>
        right
        have hg := contents_get b 0
        refine ⟨(contents b).head?, b, ?_, h, rfl⟩
        rw [List.head?_eq_getElem?, hg]
        simp only [TB.step, TB.cur, Nat.add_zero, Nat.mod_eq_of_lt h.r, gt_iff_lt]
        split <;> rfl
      | second =>
        right
        have hg := contents_get b 1
        refine ⟨(contents b)[1]?, b, ?_, h, rfl⟩
        rw [hg]
        have := incR_eq b h.r
        simp only [TB.step, this, ge_iff_le]
        by_cases h2 : 2 ≤ b.len
        · rw [if_pos h2, if_pos (by omega)]
        · rw [if_neg h2, if_neg (by omega)]
    rcases key with ⟨h1, h2⟩ | ⟨o, b', h1, h2, h3⟩
    · simp [TB.run, qrun, h1, h2]
    · simp only [TB.run, qrun, h1, h3]
      have he' := he.2
      rw [h3] at he'
      rw [← ih h2 he', Option.map_map, Option.map_map]
      rfl

/-- **C05.** For every history of scans, reads and lookaheads, of any length, the buffer hands
out the same tokens as an unbounded-history FIFO queue of at most five tokens, refuses exactly
when that queue is full or empty, and ends with the queue's contents.  Hypothesis: the end of
the source is not scanned into a full buffer (see `full_eof_violated`). -/
theorem tokensBuf_fifo (z : T) (ops : List (BufOp T)) (he : eofHasRoom [] ops) :
    ((TB.new z).run ops).map (fun p => (p.1, contents p.2)) = qrun [] ops := by
  have := run_refines (b := TB.new z) ⟨by simp [TB.new], by simp [TB.new], by simp [TB.new]⟩ ops
    (by simpa [contents, TB.new] using he)
  rw [this]
  simp [contents, TB.new]

/-- Eleven scans and ten reads wrap the ring twice. -/
example :
    let ops : List (BufOp Nat) := [.advance 1, .advance 2, .read, .advance 3, .cur, .second, .read,
      .advance 4, .advance 5, .advance 6, .read, .eof 0, .read, .read, .advance 7, .advance 8, .read,
      .read, .read, .eof 0, .advance 9, .advance 10, .advance 11, .advance 12, .advance 13, .read]
    eofHasRoom [] ops ∧ ((TB.new 0).run ops).isSome = true := by
  refine ⟨by simp [eofHasRoom, qstep], by decide⟩

/-- **C05, outside its hypothesis.**  Scanning a token or the end of the source while five
tokens are buffered overwrites the oldest one. -/
theorem full_eof_violated :
    ((TB.new 0).run [.advance 1, .advance 2, .advance 3, .advance 4, .advance 5, .eof 9, .cur]).map
      (fun p => p.1.getLast?) = some (some (some 9)) := by
  decide

end Mole.Lexer
