import Verif.Parser.CmtsSpec

/-! # C82: lemmas -/

namespace Mole.Parser.Cmts

theorem perm_mid {α : Type} (a b : List α) (c : α) (r : List α) : (a ++ [c] ++ b ++ r).Perm (a ++ b ++ c :: r) := by
  refine .trans ?_ (List.perm_middle (a := c) (l₁ := a ++ b) (l₂ := r)).symm
  have : a ++ [c] ++ b ++ r = a ++ c :: (b ++ r) := by simp
  rw [this, List.append_assoc]
  exact List.perm_middle

theorem lexTok_spec (l : List Item) : ∀ (p : Bool) (s : St),
    (lexTok p s l).held = s.held ∧ (lexTok p s l).maps = s.maps ∧ (lexTok p s l).saved = s.saved ∧
    ∃ a b r, (lexTok p s l).stmt = s.stmt ++ a ∧ (lexTok p s l).expr = s.expr ++ b ∧ (a ++ b).Perm r ∧
      a.Sublist r ∧ b.Sublist r ∧ cmts l = r ++ cmts (lexTok p s l).src := by
  induction l with
  | nil => intro p s; exact ⟨rfl, rfl, rfl, [], [], [], by simp [lexTok], by simp [lexTok], .refl _, .refl _, .refl _, by simp [lexTok, cmts]⟩
  | cons i r ih =>
    intro p s
    cases i with
    | tok lo => exact ⟨rfl, rfl, rfl, [], [], [], by simp [lexTok], by simp [lexTok], .refl _, .refl _, .refl _, by simp [lexTok, cmts]⟩
    | cmt c =>
      rw [lexTok]
      split
      · obtain ⟨h1, h2, h3, a, b, q, h4, h5, h6, h7, h8, h9⟩ := ih c.nl { s with stmt := s.stmt ++ [c] }
        refine ⟨h1, h2, h3, c :: a, b, c :: q, by rw [h4]; simp, h5, by simpa using h6, .cons_cons _ h7, .cons _ h8, by rw [cmts, h9]; rfl⟩
      · obtain ⟨h1, h2, h3, a, b, q, h4, h5, h6, h7, h8, h9⟩ := ih c.nl { s with expr := s.expr ++ [c] }
        refine ⟨h1, h2, h3, a, c :: b, c :: q, h4, by rw [h5]; simp, ?_, .cons _ h7, .cons_cons _ h8, by rw [cmts, h9]; rfl⟩
        exact List.perm_middle.trans (h6.cons c)

/-- What holds at all times, if no state is restored. -/
structure Inv (src : List Item) (s : St) : Prop where
  /-- what has been read is somewhere, and nothing else is -/
  acct : (s.all ++ cmts s.src).Perm (cmts src)
  /-- the comments that have been read -/
  read : ∃ r, cmts src = r ++ cmts s.src ∧ s.stmt.Sublist r ∧ s.expr.Sublist r ∧ (∀ l ∈ s.held, l.Sublist r) ∧ ∀ e ∈ s.maps, e.2.Sublist r

theorem Inv.init (src : List Item) : Inv src (start src) :=
  ⟨by simp [start, St.all], [], by simp [start], .refl _, .refl _, by simp [start], by simp [start]⟩

theorem report_all (s : St) (k : Key) (l : List Cmt) : (report s k l).all.Perm (l ++ s.all) := by
  rw [report]
  split
  · next h => rw [h]; exact .refl _
  · simp only [St.all, List.map_cons, List.flatten_cons]
    rw [← List.append_assoc]
    refine .trans (List.Perm.append_right _ List.perm_append_comm) ?_
    rw [List.append_assoc]

theorem report_maps (s : St) (k : Key) (l : List Cmt) {P : Key × List Cmt → Prop} (h : ∀ e ∈ s.maps, P e) (hk : P (k, l)) :
    ∀ e ∈ (report s k l).maps, P e := by
  rw [report]
  split
  · exact h
  · intro e he
    rcases List.mem_cons.1 he with rfl | he
    · exact hk
    · exact h e he

theorem report_same (s : St) (k : Key) (l : List Cmt) : (report s k l).src = s.src ∧ (report s k l).stmt = s.stmt ∧ (report s k l).expr = s.expr ∧
    (report s k l).held = s.held := by
  rw [report]
  split <;> exact ⟨rfl, rfl, rfl, rfl⟩

theorem Inv.report {src : List Item} {s : St} {k : Key} {l : List Cmt} (ha : (l ++ s.all ++ cmts s.src).Perm (cmts src))
    (hr : ∃ r, cmts src = r ++ cmts s.src ∧ s.stmt.Sublist r ∧ s.expr.Sublist r ∧ (∀ l ∈ s.held, l.Sublist r) ∧ (∀ e ∈ s.maps, e.2.Sublist r) ∧
      l.Sublist r) : Inv src (report s k l) := by
  obtain ⟨r, h1, h2, h3, h4, h5, h6⟩ := hr
  obtain ⟨e1, e2, e3, e4⟩ := report_same s k l
  refine ⟨?_, r, by rw [e1]; exact h1, by rw [e2]; exact h2, by rw [e3]; exact h3, by rw [e4]; exact h4, report_maps s k l h5 h6⟩
  rw [e1]
  exact ((report_all s k l).append_right _).trans ha

theorem Inv.step {src : List Item} {s : St} (i : Inv src s) {o : Op} (ho : o ≠ .restore) : Inv src (step s o) := by
  obtain ⟨acct, r, h1, h2, h3, h4, h5⟩ := i
  cases o with
  | restore => exact absurd rfl ho
  | save => exact ⟨acct, r, h1, h2, h3, h4, h5⟩
  | lex =>
    obtain ⟨e1, e2, e3, a, b, q, k1, k2, k3, k4, k5, k6⟩ := lexTok_spec s.src false s
    refine ⟨?_, r ++ q, ?_, ?_, ?_, ?_, ?_⟩
    · refine .trans ?_ acct
      show ((lexTok false s s.src).all ++ cmts (lexTok false s s.src).src).Perm _
      rw [k6, ← List.append_assoc]
      refine .append_right _ ?_
      rw [St.all, St.all, k1, k2, e1, e2]
      have hp : (s.stmt ++ a ++ (s.expr ++ b)).Perm (s.stmt ++ s.expr ++ (a ++ b)) := by
        simp only [List.append_assoc]
        refine .append_left _ ?_
        rw [← List.append_assoc, ← List.append_assoc]
        exact .append_right _ List.perm_append_comm
      refine .trans (.append_right _ (.append_right _ hp)) ?_
      simp only [List.append_assoc]
      refine .append_left _ (.append_left _ ?_)
      rw [← List.append_assoc]
      refine .trans List.perm_append_comm ?_
      simp only [List.append_assoc]
      exact .append_left _ (.append_left _ k3)
    · rw [h1, k6, List.append_assoc]; rfl
    · show (lexTok false s s.src).stmt.Sublist _
      rw [k1]; exact h2.append k4
    · show (lexTok false s s.src).expr.Sublist _
      rw [k2]; exact h3.append k5
    · show ∀ l ∈ (lexTok false s s.src).held, _
      rw [e1]; exact fun l hl => (h4 l hl).trans (List.sublist_append_left _ _)
    · show ∀ l ∈ (lexTok false s s.src).maps, _
      rw [e2]; exact fun l hl => (h5 l hl).trans (List.sublist_append_left _ _)
  | holdStmt =>
    refine ⟨.trans (.append_right _ ?_) acct, r, h1, List.nil_sublist _, h3, ?_, h5⟩
    · simp only [Cmts.step, St.all, List.flatten_cons, List.nil_append, ← List.append_assoc]
      exact .append_right _ (.append_right _ List.perm_append_comm)
    · intro l hl
      rcases List.mem_cons.1 hl with rfl | hl
      · exact h2
      · exact h4 l hl
  | holdExpr =>
    refine ⟨.trans (.append_right _ ?_) acct, r, h1, h2, List.nil_sublist _, ?_, h5⟩
    · simp only [Cmts.step, St.all, List.flatten_cons, List.append_nil, ← List.append_assoc]
      exact .refl _
    · intro l hl
      rcases List.mem_cons.1 hl with rfl | hl
      · exact h3
      · exact h4 l hl
  | release n =>
    rw [Cmts.step]
    split
    · next l q e =>
      rw [e] at h4
      refine .report ?_ ⟨r, h1, h2, h3, fun l hl => h4 l (List.mem_cons_of_mem _ hl), h5, h4 l (List.mem_cons_self ..)⟩
      refine .trans (.append_right _ ?_) acct
      simp only [St.all, e, List.flatten_cons, ← List.append_assoc]
      refine .append_right _ (.append_right _ ?_)
      simp only [List.append_assoc]
      refine .trans List.perm_append_comm ?_
      simp only [List.append_assoc]
      exact .refl _
    · exact ⟨acct, r, h1, h2, h3, h4, h5⟩
  | post n =>
    refine .report ?_ ⟨r, h1, h2, List.nil_sublist _, h4, h5, h3⟩
    refine .trans (.append_right _ ?_) acct
    simp only [St.all, List.append_nil, ← List.append_assoc]
    exact .append_right _ (.append_right _ List.perm_append_comm)
  | prev n =>
    refine .report ?_ ⟨r, h1, h2, List.nil_sublist _, h4, h5, h3⟩
    refine .trans (.append_right _ ?_) acct
    simp only [St.all, List.append_nil, ← List.append_assoc]
    exact .append_right _ (.append_right _ List.perm_append_comm)

theorem Inv.run {src : List Item} : ∀ {l : List Op} {s : St}, Inv src s → plain l → Inv src (run s l)
  | [], _, i, _ => i
  | o :: l, s, i, h =>
    Inv.run (l := l) (s := Cmts.step s o) (i.step (h o (List.mem_cons_self ..))) fun o' ho => h o' (List.mem_cons_of_mem _ ho)

theorem lookup_mem {k : Key} {l : List Cmt} : ∀ {m : List (Key × List Cmt)}, m.lookup k = some l → (k, l) ∈ m
  | [], h => by simp at h
  | (k', l') :: m, h => by
    rw [List.lookup_cons] at h
    split at h
    · next e => cases h; rw [eq_of_beq e]; exact List.mem_cons_self ..
    · exact List.mem_cons_of_mem _ (lookup_mem h)

theorem get_mem {s : St} {k : Key} {c : Cmt} (h : c ∈ s.get k) : ∃ l, (k, l) ∈ s.maps ∧ c ∈ l ∧ s.get k = l := by
  rw [St.get] at h ⊢
  cases e : s.maps.lookup k with
  | none => rw [e] at h; exact nomatch h
  | some l => rw [e] at h; exact ⟨l, lookup_mem e, h, rfl⟩

theorem Sorted.nodup {l : List Cmt} (h : Sorted l) : l.Nodup :=
  h.imp fun {a b} hab e => by rw [e] at hab; exact Nat.lt_irrefl _ hab

theorem two_entries {k k' : Key} {l l' : List Cmt} {c : Cmt} (hc : c ∈ l) (hc' : c ∈ l') (hk : k ≠ k') :
    ∀ {m : List (Key × List Cmt)}, (k, l) ∈ m → (k', l') ∈ m → ¬ (m.map (·.2)).flatten.Nodup
  | [], h, _, _ => nomatch h
  | e :: m, h, h', hn => by
    simp only [List.map_cons, List.flatten_cons, List.nodup_append] at hn
    have mem : ∀ {k : Key} {l : List Cmt}, (k, l) ∈ m → c ∈ l → c ∈ (m.map (·.2)).flatten := fun h hc =>
      List.mem_flatten.2 ⟨_, List.mem_map.2 ⟨_, h, rfl⟩, hc⟩
    rcases List.mem_cons.1 h with e1 | h1
    · rcases List.mem_cons.1 h' with e2 | h2
      · rw [← e1] at e2; cases e2; exact hk rfl
      · rw [← e1] at hn; exact hn.2.2 c hc c (mem h2 hc') rfl
    · rcases List.mem_cons.1 h' with e2 | h2
      · rw [← e2] at hn; exact hn.2.2 c hc' c (mem h1 hc) rfl
      · exact two_entries hc hc' hk h1 h2 hn.2.1

theorem lookup_of_nodup {k : Key} {l : List Cmt} : ∀ {m : List (Key × List Cmt)}, (m.map (·.1)).Nodup → (k, l) ∈ m → m.lookup k = some l
  | [], _, h => nomatch h
  | (k', l') :: m, hn, h => by
    simp only [List.map_cons, List.nodup_cons] at hn
    rw [List.lookup_cons]
    rcases List.mem_cons.1 h with e | h
    · cases e; simp
    · have : (k == k') = false := by
        apply beq_false_of_ne
        intro e
        exact hn.1 (List.mem_map.2 ⟨(k, l), h, e⟩)
      rw [this]
      exact lookup_of_nodup hn.2 h

theorem run_append (s : St) (a b : List Op) : run s (a ++ b) = run (run s a) b := List.foldl_append

theorem lex_same (s : St) : (step s .lex).held = s.held ∧ (step s .lex).maps = s.maps :=
  ⟨(lexTok_spec s.src false s).1, (lexTok_spec s.src false s).2.1⟩

theorem report_maps_cases (s : St) (k : Key) (l : List Cmt) :
    ∃ m, (report s k l).maps = m ++ s.maps ∧ (m.map (·.1)).Sublist [k] := by
  rw [report]
  split
  · exact ⟨[], rfl, List.nil_sublist _⟩
  · exact ⟨[(k, l)], rfl, .refl _⟩

theorem prev_nothing {n : Nat} : ∀ s : St, s.expr = [] → step s (.prev n) = s
  | ⟨_, _, _, _, _, _⟩, h => by
    cases h
    rfl

theorem ops_spec (e : E) (he : e.noObj) : ∀ s : St, (run s e.ops).expr = [] ∧ (run s e.ops).held = s.held ∧
    ∃ m, (run s e.ops).maps = m ++ s.maps ∧ (m.map (·.1)).Sublist [⟨e.last, true⟩] := by
  induction e with
  | name n =>
    intro s
    have h1 := lex_same s
    have h2 := report_same { step s .lex with expr := [] } ⟨n, true⟩ (step s .lex).expr
    obtain ⟨m, h3, h4⟩ := report_maps_cases { step s .lex with expr := [] } ⟨n, true⟩ (step s .lex).expr
    exact ⟨h2.2.2.1, h2.2.2.2.trans h1.1, m, h3.trans (by rw [← h1.2]), h4⟩
  | obj n => exact he.elim
  | asg n l r ih =>
    intro s
    have h1 := lex_same s
    have h2 := lex_same (step s .lex)
    obtain ⟨k1, k2, m, k3, k4⟩ := ih he (step (step s .lex) .lex)
    have e : run s (E.asg n l r).ops = step (run (step (step s .lex) .lex) r.ops) (.prev r.node) := by
      rw [E.ops, run_append, run_append]; rfl
    have e2 : step (run (step (step s .lex) .lex) r.ops) (.prev r.node) = run (step (step s .lex) .lex) r.ops := prev_nothing _ k1
    rw [e, e2]
    exact ⟨k1, by rw [k2, h2.1, h1.1], m, by rw [k3, h2.2, h1.2], k4⟩

theorem stmt_spec (n : Nat) (e : E) (he : e.noObj) (s : St) : (run s (stmtOps n e)).expr = [] ∧ (run s (stmtOps n e)).held = s.held ∧
    ∃ m, (run s (stmtOps n e)).maps = m ++ s.maps ∧ (m.map (·.1)).Sublist [⟨n, false⟩, ⟨n, true⟩, ⟨e.last, true⟩] := by
  obtain ⟨_, k2, m, k3, k4⟩ := ops_spec e he (step s .holdStmt)
  have e1 : run s (stmtOps n e) = step (step (step (run (step s .holdStmt) e.ops) (.release n)) .lex) (.post n) := by
    rw [stmtOps, run_append, run_append]; rfl
  generalize hA : run (step s .holdStmt) e.ops = A at *
  have e2 : step A (.release n) = report { A with held := s.held } ⟨n, true⟩ s.stmt := by
    simp only [step, k2]
  obtain ⟨m2, h3, h4⟩ := report_maps_cases { A with held := s.held } ⟨n, true⟩ s.stmt
  have h5 := report_same { A with held := s.held } ⟨n, true⟩ s.stmt
  rw [← e2] at h3 h5
  generalize step A (.release n) = B at *
  have h6 := lex_same B
  generalize step B .lex = C at *
  obtain ⟨m3, h7, h8⟩ := report_maps_cases { C with expr := [] } ⟨n, false⟩ C.expr
  have h9 := report_same { C with expr := [] } ⟨n, false⟩ C.expr
  rw [e1]
  refine ⟨h9.2.2.1, h9.2.2.2.trans (h6.1.trans h5.2.2.2), m3 ++ (m2 ++ m), ?_, ?_⟩
  · refine h7.trans ?_
    rw [List.append_assoc, List.append_assoc]
    refine congrArg _ (h6.2.trans (h3.trans ?_))
    exact congrArg _ k3
  · simp only [List.map_append]
    exact (h8.append (h4.append k4))

theorem stmts_spec : ∀ (l : List (Nat × E)), (∀ p ∈ l, p.2.noObj) → ∀ s : St, s.expr = [] ∨ l ≠ [] →
    (run s (l.flatMap fun p => stmtOps p.1 p.2)).expr = [] ∧ (run s (l.flatMap fun p => stmtOps p.1 p.2)).held = s.held ∧
    ∃ m, (run s (l.flatMap fun p => stmtOps p.1 p.2)).maps = m ++ s.maps ∧ (m.map (·.1)).Sublist (keys l).reverse
  | [], _, s, h => ⟨h.elim id fun h => absurd rfl h, rfl, [], rfl, List.nil_sublist _⟩
  | (n, e) :: l, hl, s, _ => by
    obtain ⟨h1, h2, m, h3, h4⟩ := stmt_spec n e (hl _ (List.mem_cons_self ..)) s
    obtain ⟨k1, k2, m', k3, k4⟩ := stmts_spec l (fun p hp => hl p (List.mem_cons_of_mem _ hp)) (run s (stmtOps n e)) (.inl h1)
    rw [List.flatMap_cons, run_append]
    refine ⟨k1, k2.trans h2, m' ++ m, by rw [k3, h3, List.append_assoc], ?_⟩
    simp only [keys, List.flatMap_cons, List.reverse_append, List.map_append]
    exact k4.append h4

theorem plain_expr : ∀ e : E, plain e.ops
  | .name _ => by intro o ho; rw [E.ops] at ho; rcases List.mem_cons.1 ho with rfl | ho; · simp
                  rcases List.mem_cons.1 ho with rfl | ho <;> simp_all
  | .obj _ => by intro o ho; simp only [E.ops, List.mem_cons, List.not_mem_nil, or_false] at ho; rcases ho with rfl | rfl | rfl | rfl | rfl <;> simp
  | .asg _ _ r => by
    intro o ho
    simp only [E.ops, List.mem_append, List.mem_cons, List.not_mem_nil, or_false] at ho
    rcases ho with ((rfl | rfl) | ho) | rfl
    · simp
    · simp
    · exact plain_expr r o ho
    · simp

theorem plain_prog (l : List (Nat × E)) : plain (progOps l) := by
  intro o ho
  rcases List.mem_cons.1 ho with rfl | ho
  · simp
  · obtain ⟨p, _, hp⟩ := List.mem_flatMap.1 ho
    simp only [stmtOps, List.mem_append, List.mem_cons, List.not_mem_nil, or_false] at hp
    rcases hp with (rfl | hp) | rfl | rfl | rfl
    · simp
    · exact plain_expr _ _ hp
    all_goals simp

theorem lexTok_upTo (l : List Cmt) (t : Nat) (r : List Item) : ∀ (p : Bool) (s : St),
    lexTok p s (upTo l (.tok t :: r)) = { s with src := r, stmt := s.stmt ++ pick true p l, expr := s.expr ++ pick false p l } := by
  induction l with
  | nil => intro p s; simp [upTo, lexTok, pick]
  | cons c l ih =>
    intro p s
    show lexTok p s (.cmt c :: upTo l (.tok t :: r)) = _
    rw [lexTok]
    split
    · next h => rw [ih]; simp [pick, h]
    · next h => rw [ih]; simp [pick, h]

theorem lexTok_end (l : List Cmt) : ∀ (p : Bool) (s : St),
    lexTok p s (upTo l []) = { s with src := [], stmt := s.stmt ++ pick true p l, expr := s.expr ++ pick false p l } := by
  induction l with
  | nil => intro p s; simp [upTo, lexTok, pick]
  | cons c l ih =>
    intro p s
    show lexTok p s (.cmt c :: upTo l []) = _
    rw [lexTok]
    split
    · next h => rw [ih]; simp [pick, h]
    · next h => rw [ih]; simp [pick, h]

theorem lex_source (rows : List Row) (tail : List Cmt) (s : St) (h : s.src = source rows tail) :
    step s .lex = { s with src := afterFirst rows tail, stmt := s.stmt ++ own (next rows tail), expr := s.expr ++ inline (next rows tail) } := by
  rw [step, h]
  cases rows with
  | nil => exact lexTok_end _ _ _
  | cons r rows => exact lexTok_upTo _ _ _ _ _

theorem report_filter (s : St) (k : Key) (l : List Cmt) : report s k l = { s with maps := [(k, l)].filter (fun e => !e.2.isEmpty) ++ s.maps } := by
  cases l <;> rfl

theorem stmt_run (r : Row) (rows : List Row) (tail : List Cmt) (s : St) (h : s.src = afterFirst (r :: rows) tail) :
    run s (stmtOps r.stmt (.name r.name)) = { s with
      src := afterFirst rows tail
      stmt := own r.mid ++ own (next rows tail)
      expr := []
      maps := ([(⟨r.name, true⟩, s.expr ++ inline r.mid), (⟨r.stmt, true⟩, s.stmt), (⟨r.stmt, false⟩, inline (next rows tail))].filter
        (fun e : Key × List Cmt => !e.2.isEmpty)).reverse ++ s.maps } := by
  obtain ⟨src, stmt, expr, held, maps, saved⟩ := s
  simp only at h
  subst h
  show step (step (step (step (step (step _ .holdStmt) .lex) (.prev r.name)) (.release r.stmt)) .lex) (.post r.stmt) = _
  have e1 : ∀ s : St, s.src = afterFirst (r :: rows) tail →
      step s .lex = { s with src := source rows tail, stmt := s.stmt ++ own r.mid, expr := s.expr ++ inline r.mid } := by
    intro s h
    rw [step, h]
    exact lexTok_upTo _ _ _ _ _
  have e2 := e1 (step { src := afterFirst (r :: rows) tail, stmt := stmt, expr := expr, held := held, maps := maps, saved := saved } .holdStmt) rfl
  rw [e2]
  generalize hB : step (step _ (.prev r.name)) (.release r.stmt) = B
  have e3 : B = ⟨source rows tail, own r.mid, [], held, [(⟨r.stmt, true⟩, stmt)].filter (fun e : Key × List Cmt => !e.2.isEmpty) ++
      ([(⟨r.name, true⟩, expr ++ inline r.mid)].filter (fun e : Key × List Cmt => !e.2.isEmpty) ++ maps), saved⟩ := by
    rw [← hB]
    simp only [step, report_filter, List.nil_append]
  subst e3
  rw [lex_source rows tail _ rfl]
  simp only [step, report_filter, List.nil_append, St.mk.injEq, true_and, and_true]
  simp only [List.filter_cons, List.filter_nil]
  split <;> split <;> split <;> rfl

theorem rows_run (tail : List Cmt) : ∀ (rows : List Row) (s : St), s.src = afterFirst rows tail →
    ((run s (rows.flatMap fun r => stmtOps r.stmt (.name r.name))).maps =
      ((entries s.stmt s.expr rows tail).filter fun e => !e.2.isEmpty).reverse ++ s.maps)
  | [], s, _ => rfl
  | r :: rows, s, h => by
    rw [List.flatMap_cons, run_append, stmt_run r rows tail s h, rows_run tail rows _ rfl, entries, List.filter_append, List.reverse_append,
      List.append_assoc]

end Mole.Parser.Cmts
