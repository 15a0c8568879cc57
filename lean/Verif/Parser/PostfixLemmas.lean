import Verif.Parser.PostfixSpec
/-! # Lemmas about member, call and `new` expressions -/
namespace Mole.Parser.Postfix
open Spec

/-! ## The grammar and `group` -/

theorem Member.not_dot {s t} (h : Member s t) : ∃ x r, s = x :: r ∧ ∀ n, x ≠ .dot n := by
  induction h with
  | name n | lit n | target => exact ⟨_, _, rfl, by simp⟩
  | dot n _ ih | sub n _ ih | tpl n _ ih => obtain ⟨x, r, rfl, h⟩ := ih; exact ⟨x, _, rfl, h⟩
  | new n e _ ih => exact ⟨_, _, rfl, by simp⟩

theorem group_new {x : Tok} {r : List Tok} (h : ∀ n, x ≠ .dot n) (j : Nat) :
    group j (.new :: x :: r) = group (j + 1) (x :: r) := by
  cases x <;> simp_all [group]

theorem group_member {s t} (h : Member s t) : ∀ j r, group j (s ++ r) = tail j false t r := by
  induction h with
  | name n | lit n => intro j r; simp [group]
  | target => intro j r; simp [group]
  | dot n _ ih | sub n _ ih | tpl n _ ih => intro j r; rw [List.append_assoc, ih]; simp [tail]
  | @new s t n e h ih =>
    intro j r
    obtain ⟨x, r', rfl, hx⟩ := Member.not_dot h
    have := ih (j + 1) (.args n e :: r)
    simp only [List.cons_append, List.append_assoc, List.nil_append] at this ⊢
    rw [group_new hx, this, tail]

theorem NewE.not_dot {s t} (h : NewE s t) : ∃ x r, s = x :: r ∧ ∀ n, x ≠ .dot n := by
  cases h with
  | member h => exact Member.not_dot h
  | new h => exact ⟨_, _, rfl, by simp⟩

theorem group_newE {s t} (h : NewE s t) : ∀ j, group j s = tail j false t [] := by
  induction h with
  | member h => intro j; simpa using group_member h j []
  | new h ih =>
    intro j
    obtain ⟨x, r', rfl, hx⟩ := NewE.not_dot h
    rw [group_new hx, ih, tail]

theorem group_call {s t} (h : CallE s t) : ∀ r, group 0 (s ++ r) = tail 0 false t r := by
  induction h with
  | member n e h => intro r; rw [List.append_assoc, group_member h]; simp [tail]
  | args n _ _ ih | dot n _ ih | sub n _ ih | tpl n _ ih => intro r; rw [List.append_assoc, ih]; simp [tail]

theorem tail_link {l f} (h : Link l f) (o : Bool) (t : T) (r : List Tok) :
    tail 0 o t (l ++ r) = tail 0 true (f t) r := by
  cases h <;> cases o <;> simp [tail]

theorem group_opt {s t} (h : OptE s t) : ∀ r, group 0 (s ++ r) = tail 0 true t r := by
  induction h with
  | member h l => intro r; rw [List.append_assoc, group_member h, tail_link l]
  | call h l => intro r; rw [List.append_assoc, group_call h, tail_link l]
  | again h l ih => intro r; rw [List.append_assoc, ih, tail_link l]
  | dot n _ ih | sub n _ ih | args n _ _ ih => intro r; rw [List.append_assoc, ih]; simp [tail]

theorem group_of_lhs {s t} (h : Lhs s t) : group 0 s = some t := by
  cases h with
  | new h => rw [group_newE h, tail]; rfl
  | call h => have := group_call h []; simpa [tail] using this
  | opt h => have := group_opt h []; simpa [tail] using this

theorem tail_nil {s t u} (h : NewE s t) : ∀ {j : Nat}, tail j false t [] = some u →
    NewE (List.replicate j .new ++ s) u := by
  intro j
  induction j generalizing s t with
  | zero => intro e; simp only [tail] at e; cases e; simpa using h
  | succ j ih =>
    intro e
    simp only [tail] at e
    have := ih (.new h) e
    rwa [show List.replicate (j + 1) Tok.new ++ s = List.replicate j .new ++ (.new :: s) by
      rw [List.replicate_succ', List.append_assoc]; rfl]

/-- What has been read so far. -/
def Read (j : Nat) (o : Bool) (s : List Tok) (t : T) : Prop :=
  match o with
  | false => Member s t ∨ (j = 0 ∧ CallE s t)
  | true => j = 0 ∧ OptE s t

theorem lhs_of_tail (j : Nat) (o : Bool) (t : T) (r : List Tok) : ∀ {s u}, Read j o s t → tail j o t r = some u →
    Lhs (List.replicate j .new ++ s ++ r) u := by
  fun_induction tail j o t r with
  | case1 o t =>
    intro s u h e
    cases e
    cases o with
    | false =>
      rcases h with h | ⟨_, h⟩
      · simpa using .new (.member h)
      · simpa using .call h
    | true => simpa using .opt h.2
  | case2 j o t ih =>
    intro s u h e
    cases o with
    | true => exact absurd h.1 (by simp)
    | false =>
      rcases h with h | ⟨h, _⟩
      · have := tail_nil (j := j + 1) (.member h) (by simpa only [tail] using e)
        simpa using Lhs.new this
      · exact absurd h (by simp)
  | case3 j o t n r ih =>
    intro s u h e
    have : Read j o (s ++ [.dot n]) (.dot t n false) := by
      cases o with
      | false => rcases h with h | ⟨a, h⟩
                 · exact .inl (.dot n h)
                 · exact .inr ⟨a, .dot n h⟩
      | true => exact ⟨h.1, .dot n h.2⟩
    simpa using ih this e
  | case4 j o t n r ih =>
    intro s u h e
    have : Read j o (s ++ [.sub n]) (.sub t n false) := by
      cases o with
      | false => rcases h with h | ⟨a, h⟩
                 · exact .inl (.sub n h)
                 · exact .inr ⟨a, .sub n h⟩
      | true => exact ⟨h.1, .sub n h.2⟩
    simpa using ih this e
  | case5 o t n e' r ih =>
    intro s u h e
    have : Read 0 o (s ++ [.args n e']) (.call t n false) := by
      cases o with
      | false => rcases h with h | ⟨a, h⟩
                 · exact .inr ⟨rfl, .member n e' h⟩
                 · exact .inr ⟨rfl, .args n e' h⟩
      | true => exact ⟨h.1, .args n e' h.2⟩
    simpa using ih this e
  | case6 j o t n e' r ih =>
    intro s u h e
    cases o with
    | true => exact absurd h.1 (by simp)
    | false =>
      rcases h with h | ⟨h, _⟩
      · have := ih (s := .new :: s ++ [.args n e']) (.inl (.new n e' h)) e
        rw [List.replicate_succ']
        simpa using this
      · exact absurd h (by simp)
  | case7 j t n r ih =>
    intro s u h e
    have : Read j false (s ++ [.tpl n]) (.tagged t n) := by
      rcases h with h | ⟨a, h⟩
      · exact .inl (.tpl n h)
      · exact .inr ⟨a, .tpl n h⟩
    simpa using ih this e
  | case8 o t n r ih =>
    intro s u h e
    have : Read 0 true (s ++ [.opt, .name n]) (.dot t n true) := by
      cases o with
      | false => rcases h with h | ⟨a, h⟩
                 · exact ⟨rfl, .member h (.dot n)⟩
                 · exact ⟨rfl, .call h (.dot n)⟩
      | true => exact ⟨rfl, .again h.2 (.dot n)⟩
    simpa using ih this e
  | case9 o t n r ih =>
    intro s u h e
    have : Read 0 true (s ++ [.opt, .sub n]) (.sub t n true) := by
      cases o with
      | false => rcases h with h | ⟨a, h⟩
                 · exact ⟨rfl, .member h (.sub n)⟩
                 · exact ⟨rfl, .call h (.sub n)⟩
      | true => exact ⟨rfl, .again h.2 (.sub n)⟩
    simpa using ih this e
  | case10 o t n e' r ih =>
    intro s u h e
    have : Read 0 true (s ++ [.opt, .args n e']) (.call t n true) := by
      cases o with
      | false => rcases h with h | ⟨a, h⟩
                 · exact ⟨rfl, .member h (.args n e')⟩
                 · exact ⟨rfl, .call h (.args n e')⟩
      | true => exact ⟨rfl, .again h.2 (.args n e')⟩
    simpa using ih this e
  | case11 => intro s u h e; cases e

theorem lhs_of_group (j : Nat) (s : List Tok) : ∀ {t}, group j s = some t → Lhs (List.replicate j .new ++ s) t := by
  fun_induction group j s with
  | case1 j n r => intro t h; simpa using lhs_of_tail j false _ r (.inl (.name n)) h
  | case2 j n r => intro t h; simpa using lhs_of_tail j false _ r (.inl (.lit n)) h
  | case3 j r => intro t h; simpa using lhs_of_tail j false _ r (.inl .target) h
  | case4 => intro t h; cases h
  | case5 j r _ ih =>
    intro t h
    have := ih h
    rwa [show List.replicate (j + 1) Tok.new ++ r = List.replicate j .new ++ (.new :: r) by
      rw [List.replicate_succ', List.append_assoc]; rfl] at this
  | case6 => intro t h; cases h

theorem group_iff (s : List Tok) (t : T) : Lhs s t ↔ group 0 s = some t :=
  ⟨group_of_lhs, fun h => by simpa using lhs_of_group 0 s h⟩

/-! ## The loops -/

/-- A list of postfixes: `o` tells that there was a `?.`, `a` that the one before was `?.( )`.  No template after `?.`, no
arguments directly after `?.( )`. -/
def clean : (o a : Bool) → List Tok → Bool
  | _, _, [] => true
  | o, _, .dot _ :: r | o, _, .sub _ :: r => clean o false r
  | o, a, .args _ _ :: r => !a && clean o false r
  | o, _, .tpl _ :: r => !o && clean false false r
  | _, _, .opt :: .name _ :: r | _, _, .opt :: .sub _ :: r => clean true false r
  | _, _, .opt :: .args _ _ :: r => clean true true r
  | _, _, _ => false

def hasOpt (s : List Tok) : Bool := s.contains .opt

/-- The tree, before the chain is closed. -/
def fold : T → List Tok → T
  | t, .dot n :: r => fold (.dot t n false) r
  | t, .sub n :: r => fold (.sub t n false) r
  | t, .args n _ :: r => fold (.call t n false) r
  | t, .tpl n :: r => fold (.tagged t n) r
  | t, .opt :: .name n :: r => fold (.dot t n true) r
  | t, .opt :: .sub n :: r => fold (.sub t n true) r
  | t, .opt :: .args n _ :: r => fold (.call t n true) r
  | t, _ => t

def close (root o : Bool) (t : T) : T := if root && o then .chain t else t

theorem tail_clean : ∀ (o a : Bool) (s : List Tok) (t : T), clean o a s = true →
    tail 0 o t s = some (close true (o || hasOpt s) (fold t s)) := by
  intro o a s
  fun_induction clean o a s <;> intro t h <;> simp_all [tail, fold, close, hasOpt]

/-- Names and chains are not closed. -/
def Node (t : T) : Prop := t.isName = false ∧ t.isChain = false

theorem closeCall_node {root fo : Bool} {t : T} (h : fo = true → Node t) : closeCall root fo t = close root fo t := by
  unfold closeCall close
  cases root <;> cases fo <;> simp
  have := h rfl
  simp [this.1, this.2]

theorem closeMember_node {root fo : Bool} {t : T} (h : fo = true → Node t) :
    closeMember root fo t = close root fo t := by
  unfold closeMember close
  cases root <;> cases fo <;> simp
  have := h rfl
  simp [this.1]

theorem closeCall_close (root o : Bool) (t : T) (h : o = true → Node t) :
    closeCall root o (close root o t) = close root o t := by
  unfold closeCall close
  cases root <;> cases o <;> simp [T.isName, T.isChain]

def memberHead : List Tok → Bool
  | .dot _ :: _ | .sub _ :: _ | .opt :: _ => true
  | _ => false

def tplHead : List Tok → Bool
  | .tpl _ :: _ => true
  | _ => false

/-- What the loop of `callExpr` does. -/
def CallOk (f : Nat) : Prop := ∀ (root dopt fo : Bool) (t : T) (s w : List Tok), Stops w → clean fo dopt s = true →
  (dopt = true → fo = true) → (fo = true → Node t) → (t.isChain = true → tplHead s = false) →
  3 * s.length + 1 ≤ f → (memberHead s = true → 3 * s.length + 3 ≤ f) →
  callLoop f root dopt fo t (s ++ w) = some (.ok (close root (fo || hasOpt s) (fold t s), fo || hasOpt s, w))

/-- What the loop of `memberExpr` does. -/
def MemberOk (f : Nat) : Prop := ∀ (root ol : Bool) (t : T) (s w : List Tok), Stops w → clean ol false s = true →
  (ol = true → Node t) → tplHead s = false ∨ t.isChain = false → 3 * s.length + 2 ≤ f →
  (∃ s1 s2, s = s1 ++ s2 ∧ plain s1 = true ∧ tplHead s2 = true ∧ ol = false ∧
    memberLoop f true root ol t (s ++ w) = some (.ok (fold t s1, false, s2 ++ w))) ∨
  memberLoop f true root ol t (s ++ w) = some (.ok (close root (ol || hasOpt s) (fold t s), ol || hasOpt s, w))

theorem fold_node : ∀ (t : T) (s : List Tok), Node t → Node (fold t s) := by
  intro t s
  fun_induction fold t s <;> intro h <;> simp_all [Node, T.isName, T.isChain]

theorem fold_node_cons {o a : Bool} {s : List Tok} (t : T) (h : memberHead s = true) (hc : clean o a s = true) :
    Node (fold t s) := by
  match s with
  | [] | .tpl _ :: _ | .name _ :: _ | .lit _ :: _ | .new :: _ | .args _ _ :: _ | .stop _ :: _ =>
    simp [memberHead] at h
  | .dot _ :: _ | .sub _ :: _ => simp only [fold]; exact fold_node _ _ ⟨rfl, rfl⟩
  | .opt :: r =>
    match r with
    | [] => simp [clean] at hc
    | .name _ :: _ | .sub _ :: _ | .args _ _ :: _ => simp only [fold]; exact fold_node _ _ ⟨rfl, rfl⟩
    | .new :: _ | .dot _ :: _ | .tpl _ :: _ | .opt :: _ | .lit _ :: _ | .stop _ :: _ => simp [clean] at hc

theorem clean_head {o a a' : Bool} {s : List Tok} (h : memberHead s = true ∨ tplHead s = true) :
    clean o a s = clean o a' s := by
  match s with
  | [] | .dot _ :: _ | .sub _ :: _ | .tpl _ :: _ => simp [clean]
  | .name _ :: _ | .lit _ :: _ | .new :: _ | .args _ _ :: _ | .stop _ :: _ =>
    simp [memberHead, tplHead] at h
  | .opt :: r =>
    match r with
    | [] => simp [clean]
    | x :: r => cases x <;> simp [clean]

theorem clean_plain {o a : Bool} : ∀ (s1 : List Tok) {s2 : List Tok}, plain s1 = true → tplHead s2 = true →
    clean o a (s1 ++ s2) = true → clean o a s2 = true := by
  intro s1
  induction s1 generalizing a with
  | nil => intro s2 _ _ h; exact h
  | cons x r ih =>
    intro s2 h1 h2 h
    cases x <;> simp [plain] at h1
    all_goals
      simp only [List.cons_append, clean] at h
      rw [clean_head (.inr h2) (a' := false)]
      exact ih h1 h2 h

theorem fold_plain (t : T) (s1 s2 : List Tok) (h : plain s1 = true) : fold t (s1 ++ s2) = fold (fold t s1) s2 := by
  induction s1 generalizing t with
  | nil => simp [fold]
  | cons x r ih => cases x <;> simp [plain] at h <;> simp only [List.cons_append, fold] <;> exact ih _ h

theorem hasOpt_plain : ∀ (s1 s2 : List Tok), plain s1 = true → hasOpt (s1 ++ s2) = hasOpt s2 := by
  intro s1
  induction s1 with
  | nil => simp
  | cons x r ih =>
    intro s2 h
    cases x <;> simp [plain] at h
    all_goals have := ih s2 h; simpa [hasOpt] using this

theorem stop_call {f : Nat} {root dopt fo : Bool} {t : T} {w : List Tok} (h : Stops w) :
    callLoop (f + 1) root dopt fo t w = some (.ok (closeCall root fo t, fo, w)) := by
  match w with
  | [] => simp [callLoop]
  | x :: r => cases x <;> simp [Stops] at h <;> simp [callLoop]

theorem stop_member {f : Nat} {call root ol : Bool} {t : T} {w : List Tok} (h : Stops w) :
    memberLoop (f + 1) call root ol t w = some (.ok (closeMember root ol t, ol, w)) := by
  match w with
  | [] => simp [memberLoop]
  | x :: r => cases x <;> simp [Stops] at h <;> simp [memberLoop]

theorem hasOpt_opt (r : List Tok) : hasOpt (.opt :: r) = true := by simp [hasOpt]

theorem callOk_step {f : Nat} (hC : CallOk f) (hM : MemberOk f) : CallOk (f + 1) := by
  intro root dopt fo t s w hw hc hd hn ht hf hf'
  have member : ∀ s, memberHead s = true → clean fo dopt s = true → 3 * s.length + 3 ≤ f + 1 → 
      (match memberLoop f true root fo t (s ++ w) with
      | some (.ok (c, fo', r)) => callLoop f root dopt (fo || fo') c r
      | x => x) = some (.ok (close root (fo || hasOpt s) (fold t s), fo || hasOpt s, w)) := by
    intro s hs hc hf
    have hc' : clean fo false s = true := by rw [clean_head (.inl hs) (a' := dopt)]; exact hc
    have htp : tplHead s = false := by
      match s, hs with
      | .dot _ :: _, _ | .sub _ :: _, _ | .opt :: _, _ => rfl
    rcases hM root fo t s w hw hc' hn (.inl htp) (by omega) with ⟨s1, s2, rfl, p1, p2, rfl, e⟩ | e
    · rw [e]
      have hl : (s1 ++ s2).length = s1.length + s2.length := List.length_append
      have hne : Node (fold t s1) := by
        match s1, p1 with
        | [], _ => simp at htp; rw [p2] at htp; cases htp
        | .dot _ :: _, _ | .sub _ :: _, _ => simp only [fold]; exact fold_node _ _ ⟨rfl, rfl⟩
      have := hC root dopt false (fold t s1) s2 w hw (clean_plain s1 p1 p2 hc) hd (by simp)
        (by simp [hne.2]) (by omega) (by
          intro hh
          match s2, p2 with
          | .tpl _ :: _, _ => cases hh)
      simp only [Bool.or_false, Bool.false_or] at this ⊢
      rw [this, fold_plain _ _ _ p1, hasOpt_plain _ _ p1]
    · rw [e]
      have hN : (fo || hasOpt s) = true → Node (fold t s) := fun _ => fold_node_cons t hs hc
      obtain ⟨f', rfl⟩ : ∃ f', f = f' + 1 := ⟨f - 1, by omega⟩
      dsimp only
      rw [stop_call hw, show (fo || (fo || hasOpt s)) = (fo || hasOpt s) by cases fo <;> simp, closeCall_close _ _ _ hN]
  match s with
  | [] =>
    simp only [List.nil_append]
    rw [stop_call hw, closeCall_node hn]
    simp [hasOpt, fold]
  | .args n e :: r =>
    simp only [clean, Bool.and_eq_true] at hc
    have hd' : dopt = false := by simpa using hc.1
    subst hd'
    simp only [List.cons_append, callLoop]
    simp only [List.length_cons] at hf hf'
    rw [hC root false fo (.call t n false) r w hw hc.2 (by simp) (fun _ => ⟨rfl, rfl⟩) (by simp [T.isChain]) (by omega)
      (by omega)]
    simp [hasOpt, fold]
  | .tpl n :: r =>
    simp only [clean, Bool.and_eq_true] at hc
    have hf0 : fo = false := by simpa using hc.1
    subst hf0
    have hd0 : dopt = false := by cases dopt <;> simp_all
    subst hd0
    have ht' : t.isChain = false := by
      cases h : t.isChain with
      | false => rfl
      | true => simpa [tplHead] using ht h
    simp only [List.cons_append, callLoop, ht']
    simp only [List.length_cons] at hf hf'
    rw [if_neg (by simp)]
    rw [hC root false false (.tagged t n) r w hw hc.2 (by simp) (by simp) (by simp [T.isChain]) (by omega)
      (by omega)]
    simp [hasOpt, fold]
  | .dot n :: r => exact member (.dot n :: r) rfl hc (hf' rfl)
  | .sub n :: r => exact member (.sub n :: r) rfl hc (hf' rfl)
  | .opt :: r => exact member (.opt :: r) rfl hc (hf' rfl)
  | .name _ :: _ | .lit _ :: _ | .new :: _ | .stop _ :: _ => simp [clean] at hc

theorem memberLoop_optArgs (f : Nat) (call root ol : Bool) (t : T) (n : Nat) (e : Bool) (r : List Tok) :
    memberLoop (f + 1) call root ol t (.opt :: .args n e :: r) =
      match callLoop f false true true t (.args n e :: r) with
      | some (.ok (c, _, r')) => memberLoop f call root true c r'
      | x => x := by
  rw [memberLoop]
  rcases callLoop f false true true t (.args n e :: r) with _ | (_ | ⟨_, _, _⟩) <;> rfl

theorem callLoop_args (f : Nat) (root dopt fo : Bool) (t : T) (n : Nat) (e : Bool) (r : List Tok) :
    callLoop (f + 1) root dopt fo t (.args n e :: r) = callLoop f root dopt fo (.call t n dopt) r := by
  rw [callLoop]

theorem memberOk_step {f : Nat} (hC : CallOk f) (hC' : ∀ g, g < f → CallOk g) (hM : MemberOk f) :
    MemberOk (f + 1) := by
  intro root ol t s w hw hc hn ht hf
  match s with
  | [] =>
    refine .inr ?_
    simp only [List.nil_append]
    rw [stop_member hw, closeMember_node hn]
    simp [hasOpt, fold]
  | .dot n :: r =>
    simp only [List.length_cons] at hf
    simp only [clean] at hc
    rcases hM root ol (.dot t n false) r w hw hc (fun _ => ⟨rfl, rfl⟩) (.inr rfl) (by omega) with
      ⟨s1, s2, rfl, p1, p2, rfl, e⟩ | e
    · exact .inl ⟨.dot n :: s1, s2, rfl, p1, p2, rfl, by simpa [memberLoop, fold] using e⟩
    · exact .inr (by simpa [memberLoop, fold, hasOpt] using e)
  | .sub n :: r =>
    simp only [List.length_cons] at hf
    simp only [clean] at hc
    rcases hM root ol (.sub t n false) r w hw hc (fun _ => ⟨rfl, rfl⟩) (.inr rfl) (by omega) with
      ⟨s1, s2, rfl, p1, p2, rfl, e⟩ | e
    · exact .inl ⟨.sub n :: s1, s2, rfl, p1, p2, rfl, by simpa [memberLoop, fold] using e⟩
    · exact .inr (by simpa [memberLoop, fold, hasOpt] using e)
  | .args n e :: r =>
    refine .inr ?_
    simp only [List.length_cons] at hf
    have := hC root false ol t (.args n e :: r) w hw hc (by simp) hn (by simp [tplHead]) (by simp; omega) (by simp [memberHead])
    simpa [memberLoop] using this
  | .tpl n :: r =>
    simp only [clean, Bool.and_eq_true] at hc
    have hd : ol = false := by simpa using hc.1
    subst hd
    refine .inl ⟨[], .tpl n :: r, rfl, rfl, rfl, rfl, ?_⟩
    simp [memberLoop, closeMember, fold]
  | .opt :: .name n :: r =>
    simp only [List.length_cons] at hf
    simp only [clean] at hc
    rcases hM root true (.dot t n true) r w hw hc (fun _ => ⟨rfl, rfl⟩) (.inr rfl) (by omega) with
      ⟨s1, s2, rfl, p1, p2, h, e⟩ | e
    · cases h
    · refine .inr ?_
      simp only [Bool.true_or] at e
      simpa [memberLoop, fold, hasOpt] using e
  | .opt :: .sub n :: r =>
    simp only [List.length_cons] at hf
    simp only [clean] at hc
    rcases hM root true (.sub t n true) r w hw hc (fun _ => ⟨rfl, rfl⟩) (.inr rfl) (by omega) with
      ⟨s1, s2, rfl, p1, p2, h, e⟩ | e
    · cases h
    · refine .inr ?_
      simp only [Bool.true_or] at e
      simpa [memberLoop, fold, hasOpt] using e
  | .opt :: .args n e :: r =>
    simp only [List.length_cons] at hf
    simp only [clean] at hc
    obtain ⟨f', rfl⟩ : ∃ f', f = f' + 1 := ⟨f - 1, by omega⟩
    have := hC' f' (by omega) false true true (.call t n true) r w hw hc (by simp) (fun _ => ⟨rfl, rfl⟩) (by simp [T.isChain])
      (by omega) (by omega)
    refine .inr ?_
    simp only [List.cons_append, memberLoop_optArgs, callLoop_args, this]
    simp only [close, Bool.false_and, Bool.true_or]
    have hN : Node (fold (.call t n true) r) := fold_node _ _ ⟨rfl, rfl⟩
    have h2 := stop_member (f := f') (call := true) (root := root) (ol := true)
      (t := fold (.call t n true) r) hw
    simp only [Bool.false_eq_true, if_false]
    rw [h2, closeMember_node (fun _ => hN)]
    simp [hasOpt, fold, close]
  | [.opt] => simp [clean] at hc
  | .opt :: .new :: _ | .opt :: .dot _ :: _ | .opt :: .tpl _ :: _
  | .opt :: .opt :: _ | .opt :: .lit _ :: _
  | .opt :: .stop _ :: _ => simp [clean] at hc
  | .name _ :: _ | .lit _ :: _ | .new :: _ | .stop _ :: _ => simp [clean] at hc

theorem loopsOk (f : Nat) : CallOk f ∧ MemberOk f := by
  induction f using Nat.strongRecOn with
  | ind f ih =>
    match f with
    | 0 => exact ⟨fun _ _ _ _ _ _ _ _ _ _ _ h => absurd h (by omega), fun _ _ _ _ _ _ _ _ _ h => absurd h (by omega)⟩
    | f + 1 =>
      exact ⟨callOk_step (ih f (by omega)).1 (ih f (by omega)).2,
        memberOk_step (ih f (by omega)).1 (fun g hg => (ih g (by omega)).1) (ih f (by omega)).2⟩

end Mole.Parser.Postfix
