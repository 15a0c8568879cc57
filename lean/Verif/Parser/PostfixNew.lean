import Verif.Parser.PostfixLemmas
/-! # Lemmas about `new` and about the fuel -/
namespace Mole.Parser.Postfix
open Spec

/-! ## Enough fuel -/

/-- The call returns, and leaves no more tokens than it got. -/
def Ends (n : Nat) (x : Option Res) : Prop := ∃ y, x = some y ∧ ∀ t b r, y = .ok (t, b, r) → r.length ≤ n

theorem Ends.mono {n m : Nat} {x : Option Res} (h : Ends n x) (hnm : n ≤ m) : Ends m x := by
  obtain ⟨y, e, h⟩ := h
  exact ⟨y, e, fun t b r hr => Nat.le_trans (h t b r hr) hnm⟩

theorem Ends.bind {n m : Nat} {x : Option Res} {k : T → Bool → List Tok → Option Res} (h : Ends n x)
    (hk : ∀ t b r, r.length ≤ n → Ends m (k t b r)) :
    Ends m (match x with
      | some (.ok (t, b, r)) => k t b r
      | y => y) := by
  obtain ⟨y, rfl, h⟩ := h
  match y, h with
  | .error e, _ => exact ⟨.error e, rfl, by simp⟩
  | .ok (t, b, r), h => exact hk t b r (h t b r rfl)

theorem Ends.ok {n : Nat} {t : T} {b : Bool} {r : List Tok} (h : r.length ≤ n) : Ends n (some (.ok (t, b, r))) :=
  ⟨_, rfl, by rintro _ _ _ ⟨⟩; exact h⟩

theorem Ends.error {n : Nat} : Ends n (some (.error ())) := ⟨_, rfl, by simp⟩

def callHead : List Tok → Bool
  | .args _ _ :: _ => true
  | _ => false

theorem loops_end (f : Nat) :
    (∀ root dopt fo t ts, 3 * ts.length + 3 ≤ f → Ends ts.length (callLoop f root dopt fo t ts)) ∧
    (∀ root dopt fo t ts, callHead ts = true → 3 * ts.length + 1 ≤ f →
      Ends (ts.length - 1) (callLoop f root dopt fo t ts)) ∧
    (∀ call root ol t ts, 3 * ts.length + 2 ≤ f → Ends ts.length (memberLoop f call root ol t ts)) ∧
    (∀ call root ol t ts, memberHead ts = true → 3 * ts.length + 2 ≤ f →
      Ends (ts.length - 1) (memberLoop f call root ol t ts)) := by
  induction f with
  | zero => exact ⟨by intros; omega, by intros; omega, by intros; omega, by intros; omega⟩
  | succ f ih =>
    obtain ⟨c1, c2, m1, m2⟩ := ih
    have C2 : ∀ root dopt fo t ts, callHead ts = true → 3 * ts.length + 1 ≤ f + 1 →
        Ends (ts.length - 1) (callLoop (f + 1) root dopt fo t ts) := by
      intro root dopt fo t ts hh hf
      match ts, hh with
      | .args n e :: r, _ =>
        simp only [List.length_cons] at hf
        simp only [callLoop, List.length_cons, Nat.add_sub_cancel]
        exact c1 _ _ _ _ _ (by omega)
    have M2 : ∀ call root ol t ts, memberHead ts = true → 3 * ts.length + 2 ≤ f + 1 →
        Ends (ts.length - 1) (memberLoop (f + 1) call root ol t ts) := by
      intro call root ol t ts hh hf
      match ts, hh with
      | .dot n :: r, _ | .sub n :: r, _ =>
        simp only [List.length_cons] at hf
        simp only [memberLoop, List.length_cons, Nat.add_sub_cancel]
        exact m1 _ _ _ _ _ (by omega)
      | .opt :: r, _ =>
        simp only [List.length_cons] at hf
        simp only [List.length_cons, Nat.add_sub_cancel]
        match r with
        | .sub n :: r' | .name n :: r' =>
          simp only [List.length_cons] at hf
          simp only [memberLoop]
          exact (m1 _ _ _ _ _ (by omega)).mono (by simp)
        | .args n e :: r' =>
          simp only [List.length_cons] at hf
          rw [memberLoop_optArgs]
          exact (c2 false true true t (.args n e :: r') rfl (by simp; omega)).bind
            (k := fun c _ r' => memberLoop f call root true c r')
            (fun t b r'' hr => (m1 call root true t r'' (by simp at hr; omega)).mono (by simp at hr ⊢; omega))
        | [] | .new :: _ | .dot _ :: _ | .tpl _ :: _ | .opt :: _ | .lit _ :: _ | .stop _ :: _ =>
          simp only [memberLoop]; exact .error
    refine ⟨?_, C2, ?_, M2⟩
    · intro root dopt fo t ts hf
      have member : memberHead ts = true → Ends ts.length
          (match memberLoop f true root fo t ts with
          | some (.ok (c, fo', r)) => callLoop f root dopt (fo || fo') c r
          | x => x) := by
        intro hh
        have : 1 ≤ ts.length := by
          match ts, hh with
          | _ :: _, _ => simp
        exact (m2 true root fo t ts hh (by omega)).bind (k := fun c fo' r => callLoop f root dopt (fo || fo') c r)
          (fun c b r hr => (c1 _ _ _ _ _ (by omega)).mono (by omega))
      match ts with
      | .args n e :: r => exact (C2 root dopt fo t (.args n e :: r) rfl (by omega)).mono (by simp)
      | .dot n :: r | .sub n :: r | .opt :: r => exact member rfl
      | .tpl n :: r =>
        simp only [callLoop]
        split
        · exact .error
        · simp only [List.length_cons] at hf
          exact (c1 _ _ _ _ _ (by omega)).mono (by simp)
      | [] | .new :: _ | .name _ :: _ | .lit _ :: _ | .stop _ :: _ => simp only [callLoop]; exact .ok (by simp)
    · intro call root ol t ts hf
      match ts with
      | .dot n :: r => exact (M2 call root ol t (.dot n :: r) rfl hf).mono (by simp)
      | .sub n :: r => exact (M2 call root ol t (.sub n :: r) rfl hf).mono (by simp)
      | .opt :: r => exact (M2 call root ol t (.opt :: r) rfl hf).mono (by simp)
      | .args n e :: r =>
        simp only [memberLoop]
        split
        · exact (c2 _ _ _ _ _ rfl (by omega)).mono (by simp)
        · exact .ok (by simp)
      | .tpl n :: r => simp only [memberLoop]; exact .ok (by simp)
      | [] | .new :: _ | .name _ :: _ | .lit _ :: _ | .stop _ :: _ => simp only [memberLoop]; exact .ok (by simp)

theorem newLoop_ends (f : Nat) : ∀ root ol t ts, 3 * ts.length + 5 ≤ f → Ends ts.length (newLoop f root ol t ts) := by
  induction f with
  | zero => intros; omega
  | succ f ih =>
    intro root ol t ts hf
    have member : memberHead ts = true → Ends ts.length
        (let ol := ol || ts.head? == some .opt
        match memberLoop f true root ol t ts with
        | some (.ok (t, _, r)) => newLoop f false ol t r
        | x => x) := by
      intro hh
      have : 1 ≤ ts.length := by
        match ts, hh with
        | _ :: _, _ => simp
      exact ((loops_end f).2.2.2 true root _ t ts hh (by omega)).bind (k := fun t _ r => newLoop f false _ t r)
        (fun c b r hr => (ih _ _ _ _ (by omega)).mono (by omega))
    match ts with
    | .args n e :: r =>
      simp only [newLoop]
      refine ((loops_end f).2.1 root false false t (.args n e :: r) rfl (by omega)).bind
        (k := fun t _ r => newLoop f false ol t r) (fun c b r hr => (ih _ _ _ _ ?_).mono ?_)
      · simp at hr hf; omega
      · simp at hr ⊢; omega
    | .dot n :: r | .sub n :: r | .opt :: r => exact member rfl
    | .tpl n :: r => simp only [newLoop]; exact .ok (by simp)
    | [] | .new :: _ | .name _ :: _ | .lit _ :: _ | .stop _ :: _ => simp only [newLoop]; exact .ok (by simp)

theorem primary_length {ts t r} (h : primary ts = .ok (t, r)) : r.length ≤ ts.length := by
  match ts with
  | .name _ :: _ | .lit _ :: _ => cases h; simp
  | [] | .new :: _ | .dot _ :: _ | .sub _ :: _ | .args _ _ :: _ | .tpl _ :: _ | .opt :: _ | .stop _ :: _ => cases h

theorem memberObj_length {ts t r} (h : memberObj ts = .ok (t, r)) : r.length ≤ ts.length := by
  unfold memberObj at h
  split at h
  · next hp =>
    have := primary_length hp
    split at h
    · cases h
    · cases h; simp at this; omega
  · exact primary_length h

theorem newNode_length {e ts t r} (h : newNode e ts = .ok (t, r)) : r.length ≤ ts.length := by
  unfold newNode at h
  split at h
  · split at h
    · cases h
    · cases h; simp; omega
  · cases h; simp
  · cases h; simp

theorem new_ends (f : Nat) : (∀ ts, 3 * ts.length + 7 ≤ f → Ends ts.length (newExpr f ts)) ∧
    ∀ ts, 3 * ts.length + 6 ≤ f → Ends ts.length (memberExpr f ts) := by
  induction f with
  | zero => exact ⟨by intros; omega, by intros; omega⟩
  | succ f ih =>
    have node : ∀ ts, 3 * ts.length + 7 ≤ f + 1 → Ends ts.length
        (match memberExpr f ts with
        | some (.ok (expr, ol, r)) =>
          if ol then some (.error ())
          else match newNode expr r with
            | .ok (t, r') => newLoop f true false t r'
            | .error x => some (.error x)
        | x => x) := by
      intro ts hf
      refine (ih.2 ts (by omega)).bind (k := fun expr ol r => if ol then some (.error ())
          else match newNode expr r with
            | .ok (t, r') => newLoop f true false t r'
            | .error x => some (.error x)) (fun e b r hr => ?_)
      split
      · exact .error
      · cases h : newNode e r with
        | error => exact .error
        | ok p =>
          have := newNode_length h
          exact (newLoop_ends f _ _ _ _ (by omega)).mono (by omega)
    constructor
    · intro ts hf
      match ts with
      | .dot n :: r =>
        simp only [newExpr]
        split
        · exact .ok (by simp)
        · exact .error
      | [] | .sub _ :: _ | .args _ _ :: _ | .tpl _ :: _ | .opt :: _ | .new :: _ | .name _ :: _ | .lit _ :: _
      | .stop _ :: _ => exact node _ hf
    · intro ts hf
      have obj : Ends ts.length (match memberObj ts with
          | .ok (obj, r) => memberLoop f false true false obj r
          | .error x => some (.error x)) := by
        cases h : memberObj ts with
        | error => exact .error
        | ok p =>
          have := memberObj_length h
          exact ((loops_end f).2.2.1 _ _ _ _ _ (by omega)).mono (by omega)
      match ts with
      | .new :: r =>
        simp only [memberExpr]
        simp only [List.length_cons] at hf
        refine (ih.1 r (by omega)).bind (k := fun obj _ r => memberLoop f false true false obj r) (fun t b r' hr => ?_)
        exact ((loops_end f).2.2.1 _ _ _ _ _ (by omega)).mono (by simp; omega)
      | [] | .dot _ :: _ | .sub _ :: _ | .args _ _ :: _ | .tpl _ :: _ | .opt :: _ | .name _ :: _ | .lit _ :: _
      | .stop _ :: _ => exact obj

theorem lhsEnd_ends {f n : Nat} {x : Option Res} (h : Ends n x) (hf : 3 * n + 3 ≤ f) : Ends n (lhsEnd f x) := by
  obtain ⟨y, rfl, h⟩ := h
  match y, h with
  | .error e, _ => exact .error
  | .ok (t, b, r), h =>
    have hr := h t b r rfl
    have : Ends n (some (.ok (t, b, r))) := .ok hr
    match r, hr with
    | .dot m :: r, hr => exact ((loops_end f).1 _ _ _ _ _ (by omega)).mono hr
    | [], _ | .new :: _, _ | .sub _ :: _, _ | .args _ _ :: _, _ | .tpl _ :: _, _ | .opt :: _, _ | .name _ :: _, _ | .lit _ :: _, _
    | .stop _ :: _, _ => exact this

theorem lhs_ends (f : Nat) (ts : List Tok) (hf : 3 * ts.length + 7 ≤ f) : Ends ts.length (lhs f ts) := by
  refine lhsEnd_ends ?_ (by omega)
  match ts with
  | .new :: r => exact ((new_ends f).1 r (by simp at hf; omega)).mono (by simp)
  | .name n :: r | .lit n :: r =>
    exact ((loops_end f).1 _ _ _ _ r (by simp at hf; omega)).mono (by simp)
  | [] | .dot _ :: _ | .sub _ :: _ | .args _ _ :: _ | .tpl _ :: _ | .opt :: _ | .stop _ :: _ => exact .error

theorem parse_some (ts : List Tok) : ∃ x, parse ts = some x := by
  obtain ⟨y, e, _⟩ := lhs_ends (3 * ts.length + 10) ts (by omega)
  exact ⟨_, by rw [parse, e]; rfl⟩

/-! ## `new` -/

theorem memberLoop_plain : ∀ (ms : List Tok) (f : Nat) (t : T) (x : List Tok), plain ms = true → memberHead x = false →
    ms.length + 1 ≤ f → memberLoop f false true false t (ms ++ x) = some (.ok (fold t ms, false, x)) := by
  intro ms
  induction ms with
  | nil =>
    intro f t x _ hx hf
    obtain ⟨f, rfl⟩ : ∃ f', f = f' + 1 := ⟨f - 1, by omega⟩
    match x with
    | [] => simp [memberLoop, closeMember, fold]
    | y :: x => cases y <;> simp [memberHead] at hx <;> simp [memberLoop, closeMember, fold]
  | cons m ms ih =>
    intro f t x hm hx hf
    obtain ⟨f, rfl⟩ : ∃ f', f = f' + 1 := ⟨f - 1, by omega⟩
    simp only [List.length_cons] at hf
    cases m <;> simp [plain] at hm
    all_goals
      simp only [List.cons_append, memberLoop, fold]
      exact ih f _ x hm hx (by omega)

theorem Base.member {b t} (h : Base b t) : Member b t := by
  have hp : ∀ {p t}, Postfix.prim p = some t → Member [p] t := by
    intro p t h
    cases p <;> simp [Postfix.prim] at h <;> subst h
    · exact .name _
    · exact .lit _
  cases h with
  | prim h => exact hp h
  | tagged n h => exact .tpl n (hp h)

theorem memberObj_base {b t x} (h : Base b t) (hx : b.length = 1 → tplHead x = false) :
    memberObj (b ++ x) = .ok (t, x) := by
  cases h with
  | @prim p t h =>
    have hx := hx rfl
    have : primary ([p] ++ x) = .ok (t, x) := by
      cases p <;> simp [prim] at h <;> subst h <;> rfl
    unfold memberObj
    rw [this]
    match x with
    | [] => rfl
    | y :: x => cases y <;> simp [tplHead] at hx <;> rfl
  | @tagged p t n h =>
    have hc : t.isChain = false := by cases p <;> simp [prim] at h <;> subst h <;> rfl
    have : primary ([p, .tpl n] ++ x) = .ok (t, .tpl n :: x) := by
      cases p <;> simp [prim] at h <;> subst h <;> rfl
    unfold memberObj
    rw [this]
    simp [hc]

theorem base_head {b t} (h : Base b t) : ∃ p r, b = p :: r ∧ ∃ u, prim p = some u := by
  cases h with
  | prim h => exact ⟨_, _, rfl, _, h⟩
  | tagged n h => exact ⟨_, _, rfl, _, h⟩

theorem memberExpr_base {b t ms x} {f : Nat} (h : Base b t) (hm : plain ms = true) (hx : memberHead x = false)
    (ht : tplHead x = false ∨ ms ≠ [] ∨ b.length = 2) (hf : ms.length + 2 ≤ f) :
    memberExpr f (b ++ (ms ++ x)) = some (.ok (fold t ms, false, x)) := by
  obtain ⟨f, rfl⟩ : ∃ f', f = f' + 1 := ⟨f - 1, by omega⟩
  have h1 : memberObj (b ++ (ms ++ x)) = .ok (t, ms ++ x) := by
    refine memberObj_base h fun hl => ?_
    match ms, hm with
    | [], _ => rcases ht with ht | ht | ht
               · simpa using ht
               · exact absurd rfl ht
               · omega
    | .dot _ :: _, _ | .sub _ :: _, _ => rfl
  have h2 := memberLoop_plain ms f t x hm hx (by omega)
  obtain ⟨p, r, rfl, u, hp⟩ := base_head h
  simp only [List.cons_append] at h1 ⊢
  cases p <;> simp [prim] at hp
  all_goals simp only [memberExpr, h1, h2]

theorem newExpr_eq {b t} (hb : Base b t) (f : Nat) (x : List Tok) :
    newExpr (f + 1) (b ++ x) = match memberExpr f (b ++ x) with
      | some (.ok (expr, ol, r)) =>
        if ol then some (.error ())
        else match newNode expr r with
          | .ok (t, r') => newLoop f true false t r'
          | .error x => some (.error x)
      | x => x := by
  obtain ⟨p, r, rfl, u, hp⟩ := base_head hb
  cases p <;> simp [prim] at hp <;> simp only [List.cons_append, newExpr]
  all_goals rcases memberExpr f _ with _ | (_ | ⟨_, _, _⟩) <;> rfl

theorem newLoop_stop {f : Nat} {root ol : Bool} {t : T} {w : List Tok} (h : Stops w) :
    newLoop (f + 1) root ol t w = some (.ok (t, false, w)) := by
  match w with
  | [] => simp [newLoop]
  | x :: r => cases x <;> simp [Stops] at h <;> simp [newLoop]

theorem stops_heads {w : List Tok} (h : Stops w) : memberHead w = false ∧ tplHead w = false ∧ callHead w = false := by
  match w with
  | [] => simp [memberHead, tplHead, callHead]
  | x :: r => cases x <;> simp [Stops] at h <;> simp [memberHead, tplHead, callHead]

/-- `new` without arguments. -/
theorem newExpr_bare {b t ms w} {f : Nat} (hb : Base b t) (hm : plain ms = true) (hw : Stops w)
    (hf : ms.length + 3 ≤ f) : newExpr f (b ++ (ms ++ w)) = some (.ok (.new (fold t ms) none, false, w)) := by
  obtain ⟨f, rfl⟩ : ∃ f', f = f' + 2 := ⟨f - 2, by omega⟩
  obtain ⟨h1, h2, h3⟩ := stops_heads hw
  rw [newExpr_eq hb, memberExpr_base hb hm h1 (.inl h2) (by omega)]
  have : newNode (fold t ms) w = .ok (.new (fold t ms) none, w) := by
    match w, h3 with
    | [], _ => rfl
    | x :: w, h3 => cases x <;> simp [callHead] at h3 <;> rfl
  simp only [Bool.false_eq_true, if_false, this]
  exact newLoop_stop hw

theorem late_plain : ∀ {s1 s2 : List Tok}, plain s1 = true → tplHead s2 = true → late (s1 ++ s2) = true → False := by
  intro s1
  induction s1 with
  | nil =>
    intro s2 _ h2 h
    match s2, h2 with
    | .tpl _ :: _, _ => cases h
  | cons x r ih =>
    intro s2 h1 h2 h
    cases x <;> simp [plain] at h1
    all_goals exact ih h1 h2 (by simpa [late] using h)

theorem newLoop_post {f : Nat} {t : T} {post w : List Tok} (hc : clean false false post = true) (hl : late post = true)
    (hw : Stops w) (hn : Node t) (hf : 3 * post.length + 5 ≤ f) :
    newLoop f true false t (post ++ w) = some (.ok (close true (hasOpt post) (fold t post), false, w)) := by
  obtain ⟨f, rfl⟩ : ∃ f', f = f' + 2 := ⟨f - 2, by omega⟩
  have member : ∀ ol, memberHead post = true → (ol = true → hasOpt post = true ∧ clean true false post = true) →
      (match memberLoop (f + 1) true true ol t (post ++ w) with
      | some (.ok (t, _, r)) => newLoop (f + 1) false ol t r
      | x => x) = some (.ok (close true (hasOpt post) (fold t post), false, w)) := by
    intro ol hh ho
    have htp : tplHead post = false := by
      match post, hh with
      | .dot _ :: _, _ | .sub _ :: _, _ | .opt :: _, _ => rfl
    have hc' : clean ol false post = true := by
      cases ol with
      | false => exact hc
      | true => exact (ho rfl).2
    have hor : (ol || hasOpt post) = hasOpt post := by
      cases ol with
      | false => rfl
      | true => rw [(ho rfl).1]; rfl
    rcases (loopsOk (f + 1)).2 true ol t post w hw hc' (fun _ => hn) (.inl htp) (by omega) with
      ⟨s1, s2, rfl, p1, p2, rfl, e⟩ | e
    · exact (late_plain p1 p2 hl).elim
    · rw [e, hor]
      dsimp only
      rw [newLoop_stop hw]
  match post with
  | [] => simp only [List.nil_append]; rw [newLoop_stop hw]; simp [close, hasOpt, fold]
  | .args n e :: r =>
    have := (loopsOk (f + 1)).1 true false false t (.args n e :: r) w hw hc (by simp) (by simp) (by simp [hn.2]) (by omega)
      (by simp [memberHead])
    simp only [List.cons_append, Bool.false_or] at this ⊢
    simp only [newLoop, this]
    exact newLoop_stop hw
  | .dot n :: r => exact member false rfl (by simp)
  | .sub n :: r => exact member false rfl (by simp)
  | .opt :: r =>
    refine member true rfl fun _ => ⟨hasOpt_opt r, ?_⟩
    match r with
    | [] => simp [clean] at hc
    | x :: r => cases x <;> simp [clean] at hc <;> simpa [clean] using hc
  | .tpl _ :: _ => cases hl
  | .name _ :: _ | .lit _ :: _ | .new :: _ | .stop _ :: _ => simp [clean] at hc

/-- `new` with arguments. -/
theorem newExpr_args {b t ms n e post w} {f : Nat} (hb : Base b t) (hm : plain ms = true)
    (hc : clean false false post = true) (hl : late post = true) (hw : Stops w)
    (hf : ms.length + 3 * post.length + 7 ≤ f) :
    newExpr f (b ++ (ms ++ (.args n e :: (post ++ w)))) =
      some (.ok (close true (hasOpt post) (fold (.new (fold t ms) (some n)) post), false, w)) := by
  obtain ⟨f, rfl⟩ : ∃ f', f = f' + 1 := ⟨f - 1, by omega⟩
  rw [newExpr_eq hb, memberExpr_base hb hm rfl (.inl rfl) (by omega)]
  have : newNode (fold t ms) (.args n e :: (post ++ w)) = .ok (.new (fold t ms) (some n), post ++ w) := by
    have : tplHead (post ++ w) = false := by
      match post, hl with
      | [], _ => exact (stops_heads hw).2.1
      | x :: post, hl => cases x <;> simp [late] at hl <;> rfl
    match post ++ w, this with
    | [], _ => cases e <;> rfl
    | x :: r, h => cases x <;> simp [tplHead] at h <;> cases e <;> rfl
  simp only [Bool.false_eq_true, if_false, this]
  exact newLoop_post hc hl hw ⟨rfl, rfl⟩ (by omega)

theorem newExpr_nest {f : Nat} {x w : List Tok} {u : T} {b : Bool} (h : newExpr (f + 1) x = some (.ok (u, b, w)))
    (hw : Stops w) : newExpr (f + 3) (.new :: x) = some (.ok (.new u none, false, w)) := by
  obtain ⟨h1, h2, h3⟩ := stops_heads hw
  have hm : memberLoop (f + 1) false true false u w = some (.ok (u, false, w)) := by
    rw [stop_member hw]; simp [closeMember]
  have : newNode u w = .ok (.new u none, w) := by
    match w, h3 with
    | [], _ => rfl
    | x :: w, h3 => cases x <;> simp [callHead] at h3 <;> rfl
  rw [newExpr]
  · rw [memberExpr, h]
    dsimp only
    rw [hm]
    simp only [Bool.false_eq_true, if_false, this]
    exact newLoop_stop hw
  · simp

theorem newExpr_nest_many : ∀ (k : Nat) {f : Nat} {x w : List Tok} {u : T} {b : Bool},
    newExpr (f + 1) x = some (.ok (u, b, w)) → Stops w →
    ∃ b, newExpr (f + 2 * k + 1) (List.replicate k .new ++ x) =
      some (.ok (Nat.repeat (fun t => .new t none) k u, b, w)) := by
  intro k
  induction k with
  | zero => intro f x w u b h _; exact ⟨b, by simpa [Nat.repeat] using h⟩
  | succ k ih =>
    intro f x w u b h hw
    obtain ⟨b', h'⟩ := ih h hw
    exact ⟨false, by
      rw [show f + 2 * (k + 1) + 1 = f + 2 * k + 3 by omega, List.replicate_succ, List.cons_append, newExpr_nest h' hw]
      rfl⟩

/-! ## The specification on the same lists -/

theorem tail_plain : ∀ (ms : List Tok) (j : Nat) (o : Bool) (t : T) (x : List Tok), plain ms = true →
    tail j o t (ms ++ x) = tail j o (fold t ms) x := by
  intro ms
  induction ms with
  | nil => intro j o t x _; simp [fold]
  | cons m ms ih =>
    intro j o t x hm
    cases m <;> simp [plain] at hm <;> simp only [List.cons_append, tail, fold] <;> exact ih _ _ _ _ hm

theorem tail_bare : ∀ (j : Nat) (t : T), tail j false t [] = some (Nat.repeat (fun t => .new t none) j t) := by
  intro j
  induction j with
  | zero => intro t; simp [tail, Nat.repeat]
  | succ j ih =>
    intro t
    rw [tail, ih]
    have : ∀ (j : Nat) (t : T), Nat.repeat (fun t => T.new t none) j (.new t none) =
        .new (Nat.repeat (fun t => T.new t none) j t) none := by
      intro j; induction j with
      | zero => intro t; rfl
      | succ j ih => intro t; simp only [Nat.repeat, ih]
    rw [this]; rfl

theorem group_news : ∀ (k j : Nat) (x : Tok) (r : List Tok), (∀ n, x ≠ .dot n) →
    group j (List.replicate k .new ++ x :: r) = group (j + k) (x :: r) := by
  intro k
  induction k with
  | zero => intro j x r _; simp
  | succ k ih =>
    intro j x r hx
    rw [List.replicate_succ, List.cons_append]
    cases k with
    | zero => simpa using group_new hx j
    | succ k =>
      have := ih (j + 1) x r hx
      rw [List.replicate_succ, List.cons_append] at this ⊢
      rw [group_new (by simp), this]
      congr 1; omega

theorem noDouble_tail {x : Tok} {r : List Tok} (h : noDouble (x :: r) = true) : noDouble r = true := by
  rw [noDouble.eq_def] at h
  split at h
  · cases h
  · next e => cases e; exact h
  · next e => cases e

theorem clean_of_tail : ∀ (j : Nat) (o : Bool) (t : T) (s : List Tok) {u}, j = 0 → tail j o t s = some u →
    noDouble s = true → ∀ a : Bool, (a = true → callHead s = false) → clean o a s = true := by
  intro j o t s
  fun_induction tail j o t s with
  | case1 => intros; simp [clean]
  | case2 => intro u h; cases h
  | case3 j o t n r ih | case4 j o t n r ih =>
    intro u hj h hd a ha
    simp only [clean]
    exact ih hj h (noDouble_tail hd) false (by simp)
  | case5 o t n e r ih =>
    intro u hj h hd a ha
    cases a with
    | true => exact absurd (ha rfl) (by simp [callHead])
    | false => simp only [clean, Bool.not_false, Bool.true_and]; exact ih rfl h (noDouble_tail hd) false (by simp)
  | case6 => intro u h; cases h
  | case7 j t n r ih =>
    intro u hj h hd a ha
    simp only [clean, Bool.not_false, Bool.true_and]; exact ih hj h (noDouble_tail hd) false (by simp)
  | case8 o t n r ih | case9 o t n r ih =>
    intro u hj h hd a ha
    simp only [clean]; exact ih rfl h (noDouble_tail (noDouble_tail hd)) false (by simp)
  | case10 o t n e r ih =>
    intro u hj h hd a ha
    simp only [clean]
    refine ih rfl h (noDouble_tail (noDouble_tail hd)) true fun _ => ?_
    match r, hd with
    | [], _ => rfl
    | x :: r, hd => cases x <;> first | rfl | simp [noDouble] at hd
  | case11 => intro u _ h; cases h

/-! ## A `?.` that nothing fitting follows -/

def Bad : List Tok → Prop
  | .name _ :: _ | .sub _ :: _ | .args _ _ :: _ => False
  | _ => True

theorem bad_member {f : Nat} {call root ol : Bool} {t : T} {x : List Tok} (h : Bad x) :
    memberLoop (f + 1) call root ol t (.opt :: x) = some (.error ()) := by
  match x with
  | [] => simp [memberLoop]
  | y :: x => cases y <;> simp [Bad] at h <;> simp [memberLoop]

theorem loops_bad {x : List Tok} (hx : Bad x) (f : Nat) :
    (∀ root dopt fo t s, clean fo dopt s = true → noTpl s = true → 3 * s.length + 4 ≤ f →
      callLoop f root dopt fo t (s ++ .opt :: x) = some (.error ())) ∧
    (∀ root fo t s, callHead s = true → clean fo false s = true → noTpl s = true → 3 * s.length + 2 ≤ f →
      callLoop f root false fo t (s ++ .opt :: x) = some (.error ())) ∧
    (∀ root ol t s, clean ol false s = true → noTpl s = true → 3 * s.length + 3 ≤ f →
      memberLoop f true root ol t (s ++ .opt :: x) = some (.error ())) := by
  induction f using Nat.strongRecOn with
  | ind f ih =>
  match f with
  | 0 => exact ⟨by intros; omega, by intros; omega, by intros; omega⟩
  | f + 1 =>
    obtain ⟨c1, c2, m⟩ := ih f (by omega)
    have C2 : ∀ root dopt fo t s, callHead s = true → clean fo dopt s = true → noTpl s = true →
        3 * s.length + 2 ≤ f + 1 → callLoop (f + 1) root dopt fo t (s ++ .opt :: x) = some (.error ()) := by
      intro root dopt fo t s hh hc hn hf
      match s, hh with
      | .args n e :: r, _ =>
        simp only [clean, Bool.and_eq_true] at hc
        have hd : dopt = false := by simpa using hc.1
        subst hd
        simp only [List.cons_append, callLoop_args]
        simp only [List.length_cons] at hf
        exact c1 _ _ _ _ r hc.2 (by simpa [noTpl] using hn) (by omega)
    refine ⟨?_, fun root fo t s => C2 root false fo t s, ?_⟩
    · intro root dopt fo t s hc hn hf
      have member : memberHead (s ++ .opt :: x) = true → clean fo false s = true →
          callLoop (f + 1) root dopt fo t (s ++ .opt :: x) = some (.error ()) := by
        intro hh hc
        have := m root fo t s hc hn (by omega)
        match h : s ++ .opt :: x, hh with
        | .dot n :: r, _ | .sub n :: r, _ | .opt :: r, _ => rw [h] at this; simp only [callLoop, this]
      match s with
      | [] => exact member rfl rfl
      | .args n e :: r => exact C2 _ _ _ _ _ rfl hc hn (by omega)
      | .dot n :: r => exact member rfl hc
      | .sub n :: r => exact member rfl hc
      | .opt :: r => exact member rfl (by rw [clean_head (.inl rfl) (a' := dopt)]; exact hc)
      | .tpl _ :: _ => simp [noTpl] at hn
      | .name _ :: _ | .lit _ :: _ | .new :: _ | .stop _ :: _ => simp [clean] at hc
    · intro root ol t s hc hn hf
      match s with
      | [] => exact bad_member hx
      | .args n e :: r =>
        have := c2 root ol t (.args n e :: r) rfl hc hn (by omega)
        simp only [List.cons_append] at this ⊢
        simp only [memberLoop, this, if_true]
      | .dot n :: r | .sub n :: r =>
        simp only [List.length_cons] at hf
        simp only [List.cons_append, memberLoop]
        exact m _ _ _ r hc (by simpa [noTpl] using hn) (by omega)
      | .opt :: .name n :: r | .opt :: .sub n :: r =>
        simp only [List.length_cons] at hf
        simp only [List.cons_append, memberLoop]
        exact m _ _ _ r hc (by simpa [noTpl] using hn) (by omega)
      | .opt :: .args n e :: r =>
        simp only [List.length_cons] at hf
        obtain ⟨f, rfl⟩ : ∃ f', f = f' + 1 := ⟨f - 1, by omega⟩
        have := (ih f (by omega)).1 false true true (.call t n true) r hc (by simpa [noTpl] using hn) (by omega)
        simp only [List.cons_append, memberLoop_optArgs, callLoop_args, this]
      | .tpl _ :: _ => simp [noTpl] at hn
      | [.opt] => simp [clean] at hc
      | .opt :: .new :: _ | .opt :: .dot _ :: _ | .opt :: .tpl _ :: _
      | .opt :: .opt :: _ | .opt :: .lit _ :: _ | .opt :: .stop _ :: _ => simp [clean] at hc
      | .name _ :: _ | .lit _ :: _ | .new :: _ | .stop _ :: _ => simp [clean] at hc

/-- Every list is a list of postfixes followed by an end or by a `?.` that nothing fitting follows. -/
theorem split_run (n : Nat) : ∀ (o a : Bool) (ts : List Tok), ts.length ≤ n → noTpl ts = true → noDouble ts = true →
    (a = true → callHead ts = false) →
    ∃ s w, ts = s ++ w ∧ clean o a s = true ∧ noTpl s = true ∧ (Stops w ∨ ∃ x, w = .opt :: x ∧ Bad x) := by
  induction n with
  | zero =>
    intro o a ts hl _ _ _
    exact ⟨[], ts, rfl, rfl, rfl, .inl (by cases ts <;> simp_all [Stops])⟩
  | succ n ih =>
    intro o a ts hl ht hd ha
    match ts with
    | [] => exact ⟨[], [], rfl, rfl, rfl, .inl trivial⟩
    | .name _ :: _ | .lit _ :: _ | .new :: _ | .stop _ :: _ => exact ⟨[], _, rfl, rfl, rfl, .inl trivial⟩
    | .tpl _ :: _ => simp [noTpl] at ht
    | .dot m :: r =>
      obtain ⟨s, w, rfl, h1, h2, h3⟩ := ih o false r (by simpa using hl) (by simpa [noTpl] using ht) (noDouble_tail hd) (by simp)
      exact ⟨.dot m :: s, w, rfl, by simpa [clean] using h1, by simpa [noTpl] using h2, h3⟩
    | .sub m :: r =>
      obtain ⟨s, w, rfl, h1, h2, h3⟩ := ih o false r (by simpa using hl) (by simpa [noTpl] using ht) (noDouble_tail hd) (by simp)
      exact ⟨.sub m :: s, w, rfl, by simpa [clean] using h1, by simpa [noTpl] using h2, h3⟩
    | .args m e :: r =>
      have : a = false := by
        cases a with
        | false => rfl
        | true => exact absurd (ha rfl) (by simp [callHead])
      obtain ⟨s, w, rfl, h1, h2, h3⟩ := ih o false r (by simpa using hl) (by simpa [noTpl] using ht) (noDouble_tail hd) (by simp)
      exact ⟨.args m e :: s, w, rfl, by simpa [clean, this] using h1, by simpa [noTpl] using h2, h3⟩
    | .opt :: .name m :: r =>
      obtain ⟨s, w, rfl, h1, h2, h3⟩ := ih true false r (by simp at hl; omega) (by simpa [noTpl] using ht)
        (noDouble_tail (noDouble_tail hd)) (by simp)
      exact ⟨.opt :: .name m :: s, w, rfl, by simpa [clean] using h1, by simpa [noTpl] using h2, h3⟩
    | .opt :: .sub m :: r =>
      obtain ⟨s, w, rfl, h1, h2, h3⟩ := ih true false r (by simp at hl; omega) (by simpa [noTpl] using ht)
        (noDouble_tail (noDouble_tail hd)) (by simp)
      exact ⟨.opt :: .sub m :: s, w, rfl, by simpa [clean] using h1, by simpa [noTpl] using h2, h3⟩
    | .opt :: .args m e :: r =>
      have hr : callHead r = false := by
        match r, hd with
        | [], _ => rfl
        | x :: r, hd => cases x <;> first | rfl | simp [noDouble] at hd
      obtain ⟨s, w, rfl, h1, h2, h3⟩ := ih true true r (by simp at hl; omega) (by simpa [noTpl] using ht)
        (noDouble_tail (noDouble_tail hd)) (fun _ => hr)
      exact ⟨.opt :: .args m e :: s, w, rfl, by simpa [clean] using h1, by simpa [noTpl] using h2, h3⟩
    | [.opt] => exact ⟨[], _, rfl, rfl, rfl, .inr ⟨_, rfl, trivial⟩⟩
    | .opt :: .new :: _ | .opt :: .dot _ :: _ | .opt :: .tpl _ :: _
    | .opt :: .opt :: _ | .opt :: .lit _ :: _ | .opt :: .stop _ :: _ =>
      exact ⟨[], _, rfl, rfl, rfl, .inr ⟨_, rfl, trivial⟩⟩

end Mole.Parser.Postfix
