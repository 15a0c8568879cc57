import Verif.Exec.Run
import Verif.Exec.Spec

/-! The value of an expression, and its relation to the stack and to JavaScript's. -/

namespace Mole.Exec

open Spec

variable {F : Type}

mutual
/-- The value the evaluator computes for an expression that leaves one. -/
def valE (ops : Ops F) (vars : String → Val F) (prop : Bool) : Expr F → Option (Val F)
  | .bool b => some (.bool b)
  | .null => some .nil
  | .num f => some (.num f)
  | .str x => some (.str x)
  | .name n => some (if prop then .str n else if n = "undefined" then .nil else vars n)
  | .arr es => (valEs ops vars es).map fun l => .arr (Vals.ofList l)
  | .member o p _ => (valE ops vars false o).bind fun a => (valE ops vars true p).bind fun b => member ops a b
  | .bin op l r => (valE ops vars false l).bind fun a => (valE ops vars false r).bind fun b => binary ops op a b
  | .unary op e => (valE ops vars false e).map (unary ops op)
  | .call f as => (valE ops vars false f).bind fun g => (valEs ops vars as).map fun l =>
      match g with
      | .fn vs => .bool (includes ops (l.headD .nil) vs)
      | _ => .nil
  | .cond _ _ _ => none
  | .paren e => valE ops vars false e
  | .this => none
def valEs (ops : Ops F) (vars : String → Val F) : Exprs F → Option (List (Val F))
  | .nil => some []
  | .cons e r => (valE ops vars false e).bind fun v => (valEs ops vars r).map fun l => v :: l
  | .hole _ => none
end

theorem popN_append : ∀ (l acc s : List (Val F)), popN l.length acc (l.reverse ++ s) = (l ++ acc, s) := by
  intro l
  suffices h : ∀ (l acc s : List (Val F)), popN l.length acc (l ++ s) = (l.reverse ++ acc, s) by
    intro acc s
    have := h l.reverse acc s
    simpa using this
  intro l
  induction l with
  | nil => intro acc s; simp [popN]
  | cons v l ih => intro acc s; simp [popN, pop, ih]

theorem valEs_length (ops : Ops F) (vars : String → Val F) : ∀ (es : Exprs F) (l : List (Val F)), valEs ops vars es = some l →
    l.length = exprsLen es
  | .nil, l, h => by simp [valEs] at h; subst h; rfl
  | .cons e r, l, h => by
    simp only [valEs, Option.bind_eq_some_iff, Option.map_eq_some_iff] at h
    obtain ⟨v, _, l', h2, rfl⟩ := h
    simp [exprsLen, valEs_length ops vars r l' h2]
  | .hole r, l, h => by simp [valEs] at h

theorem binary_some (ops : Ops F) (op : BinOp) (h : op ≠ .lt ∧ ∀ n, op ≠ .other n) (a b : Val F) :
    ∃ x, binary ops op a b = some x := by
  cases op <;> simp [binary] at h ⊢
  by_cases hz : ops.eq (toNum ops b) ops.zero = true <;> simp [hz]

theorem whole_bin {op : BinOp} {l r : Expr F} (h : Whole (.bin op l r)) :
    Whole l ∧ Whole r ∧ op ≠ .lt ∧ ∀ n, op ≠ .other n := by
  cases op <;> simp_all [Whole]

mutual
theorem run_val (ops : Ops F) (vars : String → Val F) : ∀ (e : Expr F) (prop : Bool) (s : List (Val F)), Whole e →
    runE ops vars prop e s = (valE ops vars prop e).map (· :: s)
  | .bool b, prop, s, h => by simp [runE, valE]
  | .null, prop, s, h => by simp [runE, valE]
  | .num f, prop, s, h => by simp [runE, valE]
  | .str x, prop, s, h => by simp [runE, valE]
  | .name n, prop, s, h => by
    simp only [runE, valE, Option.map_some]
    cases prop
    · by_cases hn : n = "undefined" <;> simp [hn]
    · simp
  | .arr es, prop, s, h => by
    rw [Whole] at h
    rw [runE, valE, run_vals ops vars es s h]
    cases hv : valEs ops vars es with
    | none => rfl
    | some l =>
      have hl := valEs_length ops vars es l hv
      simp only [Option.map_some, ← hl, popN_append, List.append_nil]
  | .member o p c, prop, s, h => by
    rw [Whole] at h
    rw [runE, valE, run_val ops vars o false s h.1]
    cases valE ops vars false o with
    | none => rfl
    | some a =>
      simp only [Option.map_some, Option.bind_some, run_val ops vars p true _ h.2]
      cases valE ops vars true p with
      | none => rfl
      | some b => simp [pop]
  | .bin op l r, prop, s, h => by
    have h := whole_bin h
    rw [runE, valE, run_val ops vars l false s h.1]
    cases valE ops vars false l with
    | none => rfl
    | some a =>
      simp only [Option.map_some, Option.bind_some, run_val ops vars r false _ h.2.1]
      cases valE ops vars false r with
      | none => rfl
      | some b =>
        obtain ⟨x, hx⟩ := binary_some ops op h.2.2 a b
        simp [pop, binStep, hx]
  | .unary op e, prop, s, h => by
    rw [Whole] at h
    rw [runE, valE, run_val ops vars e false s h]
    cases valE ops vars false e with
    | none => rfl
    | some a => simp [pop]
  | .call f as, prop, s, h => by
    rw [Whole] at h
    rw [runE, valE, run_val ops vars f false s h.1]
    cases valE ops vars false f with
    | none => rfl
    | some g =>
      simp only [Option.map_some, Option.bind_some, run_vals ops vars as _ h.2]
      cases hv : valEs ops vars as with
      | none => rfl
      | some l =>
        have hl := valEs_length ops vars as l hv
        simp only [Option.map_some, callStep, ← hl, popN_append, List.append_nil, pop]
        cases g <;> rfl
  | .cond _ _ _, prop, s, h => by simp [Whole] at h
  | .paren e, prop, s, h => by
    rw [Whole] at h
    rw [runE, valE, run_val ops vars e false s h]
  | .this, prop, s, h => by simp [Whole] at h
theorem run_vals (ops : Ops F) (vars : String → Val F) : ∀ (es : Exprs F) (s : List (Val F)), Wholes es →
    runEs ops vars es s = (valEs ops vars es).map (fun l => l.reverse ++ s)
  | .nil, s, h => by simp [runEs, valEs]
  | .cons e r, s, h => by
    rw [Wholes] at h
    rw [runEs, valEs, run_val ops vars e false s h.1]
    cases valE ops vars false e with
    | none => rfl
    | some v =>
      simp only [Option.map_some, Option.bind_some, run_vals ops vars r _ h.2]
      cases valEs ops vars r with
      | none => rfl
      | some l => simp
  | .hole r, s, h => by simp [Wholes] at h
end

theorem exec_val (ops : Ops F) (vars : String → Val F) (e : Expr F) (h : Whole e) : execExpr ops vars e = valE ops vars false e := by
  rw [exec_run, run_val ops vars e false [] h]
  cases valE ops vars false e <;> simp [pop]

/-! ## Agreement with JavaScript -/

/-- The evaluator's value is right, or at least its truth. -/
def Agrees (ops : Ops F) (truth : Bool) (v : JV F) (x : Val F) : Prop :=
  if truth then toBool ops x = truthy ops v else x = enc v

theorem truth_enc (ops : Ops F) (v : JV F) (h : notNaN ops v) : toBool ops (enc v) = truthy ops v := by
  cases v <;> simp_all [toBool, enc, truthy, notNaN]

theorem agrees_of (ops : Ops F) {truth : Bool} {v : JV F} {x : Val F} (h : x = enc v) (hn : truth = true → notNaN ops v) :
    Agrees ops truth v x := by
  cases truth
  · exact h
  · simp only [Agrees, if_true, h]; exact truth_enc ops v (hn rfl)

theorem num_enc (ops : Ops F) (v : JV F) (h : NumOk ops v) : toNum ops (enc v) = toNumber ops v := by
  cases v with
  | str s =>
    simp only [NumOk] at h
    simp only [enc, toNum, toNumber, ← h]
    cases ops.parse s <;> rfl
  | _ => simp_all [NumOk, enc, toNum, toNumber]

theorem text_enc (ops : Ops F) (v : JV F) (h : TextOk ops v) : toStr ops (enc v) = toText ops v := by
  cases v <;> simp_all [TextOk, enc, toStr, toText]

theorem op_enc (ops : Ops F) (op : BinOp) (a b v : JV F) (h : OpOk ops op a b) (hv : strictOp ops op a b = some v) :
    binary ops op (enc a) (enc b) = some (enc v) := by
  cases op with
  | eqS =>
    simp only [OpOk] at h
    obtain ⟨h1, h2, h3⟩ := h
    cases a <;> cases b <;> simp_all [prim, nullish, strictOp, strictEq, binary, deepEqual, enc] <;> simp [← hv, enc]
  | neS =>
    simp only [OpOk] at h
    obtain ⟨h1, h2, h3⟩ := h
    cases a <;> cases b <;> simp_all [prim, nullish, strictOp, strictEq, binary, deepEqual, enc] <;> simp [← hv, enc]
  | eq =>
    simp only [OpOk] at h
    obtain ⟨h1, h2, h3⟩ := h
    cases a <;> cases b <;>
      simp_all [prim, nullish, sameType, strictOp, looseEq, strictEq, binary, deepEqual, enc] <;>
      simp [← hv, enc, toNumber]
  | ne =>
    simp only [OpOk] at h
    obtain ⟨h1, h2, h3⟩ := h
    cases a <;> cases b <;>
      simp_all [prim, nullish, sameType, strictOp, looseEq, strictEq, binary, deepEqual, enc] <;>
      simp [← hv, enc, toNumber]
  | add =>
    simp only [OpOk] at h
    simp only [strictOp] at hv
    split at hv
    · simp only [Option.some.injEq] at hv
      subst hv
      by_cases hs : (isStr a || isStr b) = true
      · rw [if_pos hs] at h
        simp only [plus, hs, if_true, enc, binary]
        rw [← text_enc ops a h.1, ← text_enc ops b h.2]
        cases a <;> cases b <;> simp_all [isStr, enc, addVal]
      · rw [if_neg hs] at h
        simp only [plus, hs, Bool.false_eq_true, if_false, enc, binary]
        rw [← num_enc ops a h.1, ← num_enc ops b h.2]
        cases a <;> cases b <;> simp_all [isStr, enc, addVal]
    · cases hv
  | sub =>
    simp only [OpOk] at h
    simp only [strictOp] at hv
    split at hv
    · simp only [Option.some.injEq] at hv
      simp [← hv, binary, enc, num_enc ops a h.1, num_enc ops b h.2]
    · cases hv
  | mul =>
    simp only [OpOk] at h
    simp only [strictOp] at hv
    split at hv
    · simp only [Option.some.injEq] at hv
      simp [← hv, binary, enc, num_enc ops a h.1, num_enc ops b h.2]
    · cases hv
  | div =>
    simp only [OpOk] at h
    simp only [strictOp] at hv
    split at hv
    · simp only [Option.some.injEq] at hv
      simp only [← hv, binary, enc, num_enc ops a h.1, num_enc ops b h.2.1, h.2.2]
      by_cases hz : ops.eq (toNumber ops b) ops.zero = true <;> simp [hz]
    · cases hv
  | _ => simp [OpOk] at h

theorem fields_enc (k : String) : ∀ (fs : JFields F), (encf fs).get? k = (fs.get? k).map enc
  | .nil => by simp [encf, Fields.get?, JFields.get?]
  | .cons k' v r => by
    simp only [encf, Fields.get?, JFields.get?]
    by_cases h : k = k'
    · simp [h]
    · simp [h, fields_enc k r]

theorem encs_length : ∀ (vs : JVs F), (encs vs).length = vs.length
  | .nil => rfl
  | .cons v r => by simp [encs, Vals.length, JVs.length, encs_length r]

theorem encs_get : ∀ (vs : JVs F) (n : Nat), (encs vs).get? n = (vs.get? n).map enc
  | .nil, n => by simp [encs, Vals.get?, JVs.get?]
  | .cons v r, 0 => by simp [encs, Vals.get?, JVs.get?]
  | .cons v r, n + 1 => by simp [encs, Vals.get?, JVs.get?, encs_get r n]

theorem _root_.Mole.Exec.Spec.JVs.get?_none : ∀ (vs : JVs F) (n : Nat), vs.length ≤ n → vs.get? n = none
  | .nil, n, _ => by simp [JVs.get?]
  | .cons v r, 0, h => by simp [JVs.length] at h
  | .cons v r, n + 1, h => by
    simp only [JVs.length] at h
    simp [JVs.get?, JVs.get?_none r n (by omega)]

theorem same_enc (ops : Ops F) (w v : JV F) (b : Bool) (h1 : notNaN ops w) (h2 : prim w = true)
    (h3 : (nullish v && nullish w) = true → v = w) (hb : sameValue ops v w = some b) : deepEqual ops (enc v) (enc w) = b := by
  cases w <;> cases v <;> simp_all [notNaN, prim, nullish, sameValue, strictEq, enc, deepEqual]

theorem inclOk_base (ops : Ops F) (w : JV F) : ∀ vs : JVs F, InclOk ops w vs → notNaN ops w ∧ prim w = true
  | .nil, h => h
  | .cons _ r, h => inclOk_base ops w r h.2

theorem includes_enc (ops : Ops F) (w : JV F) : ∀ (vs : JVs F) (b : Bool), InclOk ops w vs → includesJ ops w vs = some b →
    includes ops (enc w) (encs vs) = b
  | .nil, b, _, hb => by simp [includesJ] at hb; simp [encs, includes, hb]
  | .cons v r, b, h, hb => by
    have hbase := inclOk_base ops w _ h
    simp only [includesJ] at hb
    simp only [encs, includes]
    cases hs : sameValue ops v w with
    | none => rw [hs] at hb; cases hb
    | some c =>
      rw [same_enc ops w v c hbase.1 hbase.2 h.1 hs]
      rw [hs] at hb
      cases c with
      | true => simpa using hb
      | false => simpa using includes_enc ops w r b h.2 hb

theorem bool_enc (v : JV F) (ops : Ops F) (h : isBool v) : enc v = .bool (truthy ops v) := by
  cases v <;> simp_all [isBool, enc, truthy]

theorem toBool_bool (ops : Ops F) (b : Bool) : toBool ops (.bool b) = b := rfl

theorem bool_toBool (v : JV F) (ops : Ops F) (h : isBool v) : toBool ops (enc v) = truthy ops v := by
  cases v <;> simp_all [isBool, enc, truthy, toBool]

theorem bin_val (ops : Ops F) (vars : String → Val F) (op : BinOp) (l r : Expr F) (x : Val F) (prop : Bool)
    (hx : valE ops vars prop (.bin op l r) = some x) :
    ∃ a b, valE ops vars false l = some a ∧ valE ops vars false r = some b ∧ binary ops op a b = some x := by
  simp only [valE, Option.bind_eq_some_iff] at hx
  obtain ⟨a, h1, b, h2, h3⟩ := hx
  exact ⟨a, b, h1, h2, h3⟩

mutual
theorem right_agrees (ops : Ops F) (vars : String → Option (JV F)) : ∀ (e : Expr F) (truth : Bool) (v : JV F) (x : Val F),
    Right ops vars truth e → eval ops vars e = some v → valE ops (encVars vars) false e = some x → Agrees ops truth v x
  | .bool b, truth, v, x, h, hv, hx => by
    simp [eval] at hv; simp [valE] at hx
    exact agrees_of ops (by rw [← hv, ← hx, enc]) (by rw [← hv]; simp [notNaN])
  | .null, truth, v, x, h, hv, hx => by
    simp [eval] at hv; simp [valE] at hx
    exact agrees_of ops (by rw [← hv, ← hx, enc]) (by rw [← hv]; simp [notNaN])
  | .num f, truth, v, x, h, hv, hx => by
    simp [eval] at hv; simp [valE] at hx
    rw [Right] at h
    exact agrees_of ops (by rw [← hv, ← hx, enc]) (by rw [← hv]; exact h)
  | .str s, truth, v, x, h, hv, hx => by
    simp [eval] at hv; simp [valE] at hx
    exact agrees_of ops (by rw [← hv, ← hx, enc]) (by rw [← hv]; simp [notNaN])
  | .name n, truth, v, x, h, hv, hx => by
    rw [Right] at h
    rw [eval] at hv
    simp only [valE, Bool.false_eq_true, if_false, Option.some.injEq] at hx
    by_cases hn : n = "undefined"
    · rw [if_pos hn, Option.some.injEq] at hv
      rw [if_pos hn] at hx
      exact agrees_of ops (by rw [← hv, ← hx, enc]) (by rw [← hv]; simp [notNaN])
    · rw [if_neg hn] at hv hx
      rcases h with h | ⟨w, h1, h2⟩
      · exact absurd h hn
      · rw [hv, Option.some.injEq] at h1
        subst h1
        exact agrees_of ops (by rw [← hx, encVars, hv]) h2
  | .arr es, truth, v, x, h, hv, hx => by
    rw [Right] at h
    rw [eval, Option.map_eq_some_iff] at hv
    rw [valE, Option.map_eq_some_iff] at hx
    obtain ⟨vs, hv1, rfl⟩ := hv
    obtain ⟨l, hl1, rfl⟩ := hx
    exact agrees_of ops (by rw [enc, rights_agree ops vars es vs l h hv1 hl1]) (by simp [notNaN])
  | .member o p c, truth, v, x, h, hv, hx => by
    rw [Right] at h
    obtain ⟨h1, h2, h3, h4⟩ := h
    have hnn := fun ht => h4 ht v hv
    refine agrees_of ops ?_ hnn
    rw [eval] at hv
    simp only [valE, Option.bind_eq_some_iff] at hx
    obtain ⟨a, ha, b, hb, hm⟩ := hx
    cases ho : eval ops vars o with
    | none => rw [ho] at hv; cases hv
    | some w =>
      have hw := right_agrees ops vars o false _ a h1 ho ha
      simp only [Agrees, Bool.false_eq_true, if_false, enc] at hw
      subst hw
      rw [ho] at hv h3
      cases w with
      | obj fs =>
        have hobj : ∀ k, property fs k = some v → member ops (enc (.obj fs)) (.str k) = some x → x = enc v := by
          intro k hk hm
          simp only [member, getProp, toStr, enc, fields_enc, Option.map_some, Option.some.injEq] at hm
          simp only [property] at hk
          cases hg : fs.get? k with
          | some u =>
            rw [hg] at hk hm
            simp only [Option.some.injEq] at hk
            subst hk
            simp only [Option.map_some, Option.getD_some] at hm
            rw [← hm]; cases enc u <;> rfl
          | none =>
            rw [hg] at hk hm
            simp only at hk
            split at hk
            · cases hk
            · simp only [Option.some.injEq] at hk
              subst hk; simpa [enc] using hm.symm
        cases p with
        | name k =>
          simp only [KeyOk] at h2
          subst h2
          simp only [Bool.false_eq_true, if_false] at hv
          simp only [valE, if_true, Option.some.injEq] at hb
          subst hb
          exact hobj k hv hm
        | str k =>
          simp only [KeyOk] at h2
          subst h2
          simp only [if_true, eval] at hv
          simp only [valE, Option.some.injEq] at hb
          subst hb
          exact hobj k hv hm
        | num f =>
          simp only [KeyOk] at h2
          obtain ⟨rfl, _⟩ := h2
          simp [eval] at hv
        | _ => simp [KeyOk] at h2
      | arr vs =>
        cases p with
        | name k =>
          simp only [KeyOk] at h2
          subst h2
          have := h3 vs rfl
          simp only [ne_eq, Expr.name.injEq] at this
          simp [this] at hv
        | str k =>
          simp only [KeyOk] at h2
          subst h2
          simp [eval] at hv
        | num f =>
          simp only [KeyOk] at h2
          obtain ⟨rfl, k1, k2, k3, n, k4, k5⟩ := h2
          simp only [if_true, eval, k4, Option.some.injEq] at hv
          simp only [valE, Option.some.injEq] at hb
          subst hb
          simp only [member, getProp, enc, getElem, toNum, k1, k2, k5, toStr, if_neg k3, Bool.or_self, Bool.false_eq_true,
            if_false, encs_length, Int.toNat_natCast] at hm
          by_cases hlt : (n : Int) > (vs.length : Int) - 1
          · rw [if_pos hlt, JVs.get?_none _ _ (by omega)] at *
            simp only [Option.map_some, Option.some.injEq] at hm
            rw [← hm, ← hv]; exact if_neg k3
          · rw [if_neg hlt, if_neg (by omega), encs_get] at hm
            cases hg : vs.get? n with
            | none => rw [hg] at hm; simp at hm
            | some u =>
              rw [hg] at hm hv
              simp only [Option.map_some, Option.some.injEq, Option.getD_some] at hm hv
              subst hv
              rw [← hm]; cases enc u <;> first | rfl | exact if_neg k3
        | _ => simp [KeyOk] at h2
      | _ => simp at hv
  | .bin op l r, truth, v, x, h, hv, hx => by
    obtain ⟨a, b, ha, hb, hab⟩ := bin_val ops _ op l r x false hx
    by_cases hand : op = .and
    · subst hand
      rw [Right] at h
      rw [eval] at hv
      simp only [binary, Option.some.injEq] at hab
      cases hl : eval ops vars l with
      | none => rw [hl] at hv; cases hv
      | some w =>
        rw [hl] at hv
        cases truth with
        | true =>
          simp only [if_true] at h
          have hw := right_agrees ops vars l true w a h.1 hl ha
          simp only [Agrees, if_true] at hw ⊢
          rw [← hab]
          rw [toBool_bool, hw]
          by_cases ht : truthy ops w = true
          · simp only [ht, if_true] at hv
            have hr := right_agrees ops vars r true v b (h.2 w hl ht) hv hb
            simp only [Agrees, if_true] at hr
            simp [ht, hr]
          · simp only [ht, Bool.false_eq_true, if_false, Option.some.injEq] at hv
            simp [← hv, ht]
        | false =>
          simp only [Bool.false_eq_true, if_false] at h
          have hw := right_agrees ops vars l false w a h.1 hl ha
          simp only [Agrees, Bool.false_eq_true, if_false] at hw ⊢
          obtain ⟨hbw, hr⟩ := h.2 w hl
          rw [← hab, hw, bool_toBool w ops hbw]
          by_cases ht : truthy ops w = true
          · simp only [ht, if_true] at hv
            have hr' := right_agrees ops vars r false v b (hr ht).1 hv hb
            simp only [Agrees, Bool.false_eq_true, if_false] at hr'
            have hbv := (hr ht).2 v hv
            simp [ht, hr', bool_enc v ops hbv, toBool_bool]
          · simp only [ht, Bool.false_eq_true, if_false, Option.some.injEq] at hv
            subst hv
            simp [bool_enc w ops hbw, ht]
    · by_cases hor : op = .or
      · subst hor
        rw [Right] at h
        rw [eval] at hv
        simp only [binary, Option.some.injEq] at hab
        cases hl : eval ops vars l with
        | none => rw [hl] at hv; cases hv
        | some w =>
          rw [hl] at hv
          cases truth with
          | true =>
            simp only [if_true] at h
            have hw := right_agrees ops vars l true w a h.1 hl ha
            simp only [Agrees, if_true] at hw ⊢
            rw [← hab]
            rw [toBool_bool, hw]
            by_cases ht : truthy ops w = true
            · simp only [ht, if_true, Option.some.injEq] at hv
              simp [← hv, ht]
            · simp only [ht, Bool.false_eq_true, if_false] at hv
              have hr := right_agrees ops vars r true v b (h.2 w hl (by simpa using ht)) hv hb
              simp only [Agrees, if_true] at hr
              simp [ht, hr]
          | false =>
            simp only [Bool.false_eq_true, if_false] at h
            have hw := right_agrees ops vars l false w a h.1 hl ha
            simp only [Agrees, Bool.false_eq_true, if_false] at hw ⊢
            obtain ⟨hbw, hr⟩ := h.2 w hl
            rw [← hab, hw, bool_toBool w ops hbw]
            by_cases ht : truthy ops w = true
            · simp only [ht, if_true, Option.some.injEq] at hv
              subst hv
              simp [bool_enc w ops hbw, ht]
            · simp only [ht, Bool.false_eq_true, if_false] at hv
              have ht' : truthy ops w = false := by simpa using ht
              have hr' := right_agrees ops vars r false v b (hr ht').1 hv hb
              simp only [Agrees, Bool.false_eq_true, if_false] at hr'
              have hbv := (hr ht').2 v hv
              simp [ht, hr', bool_enc v ops hbv, toBool_bool]
      · rw [Right] at h
        · rw [eval] at hv
          · cases hl : eval ops vars l with
            | none => rw [hl] at hv; cases hv
            | some w =>
              cases hr : eval ops vars r with
              | none => rw [hl, hr] at hv; cases hv
              | some w' =>
                rw [hl, hr] at hv
                simp only at hv
                obtain ⟨h1, h2, h3⟩ := h
                have e1 := right_agrees ops vars l false w a h1 hl ha
                have e2 := right_agrees ops vars r false w' b h2 hr hb
                simp only [Agrees, Bool.false_eq_true, if_false] at e1 e2
                obtain ⟨h4, h5⟩ := h3 w w' hl hr
                have := op_enc ops op w w' v h4 hv
                rw [e1, e2, this, Option.some.injEq] at hab
                exact agrees_of ops hab.symm (fun ht => h5 ht v hv)
          · exact fun hc => hand hc
          · exact fun hc => hor hc
        · exact fun hc => hand hc
        · exact fun hc => hor hc
  | .unary op e, truth, v, x, h, hv, hx => by
    cases op with
    | not =>
      rw [Right] at h
      rw [eval, Option.map_eq_some_iff] at hv
      rw [valE, Option.map_eq_some_iff] at hx
      obtain ⟨w, hw, rfl⟩ := hv
      obtain ⟨a, ha, rfl⟩ := hx
      have := right_agrees ops vars e true w a h hw ha
      simp only [Agrees, if_true] at this
      exact agrees_of ops (by rw [unary, this, enc]) (by simp [notNaN])
    | _ => simp [Right] at h
  | .call f as, truth, v, x, h, hv, hx => by
    cases f with
    | member o p c =>
      match as, h, hv, hx with
      | .nil, h, _, _ => simp [Right] at h
      | .hole _, h, _, _ => simp [Right] at h
      | .cons _ (.cons _ _), h, _, _ => simp [Right] at h
      | .cons _ (.hole _), h, _, _ => simp [Right] at h
      | .cons a .nil, h, hv, hx =>
        simp only [Right] at h
        obtain ⟨rfl, rfl, k1, k2, h1, h2, h3⟩ := h
        simp only [eval, if_true] at hv
        simp only [valE, valEs, if_true, Option.bind_eq_some_iff, Option.some.injEq, exists_eq_left', Option.map_eq_some_iff,
          List.headD] at hx
        cases ho : eval ops vars o with
        | none => rw [ho] at hv; simp at hv
        | some w =>
          cases ha : eval ops vars a with
          | none => rw [ho, ha] at hv; cases w <;> simp at hv
          | some u =>
            rw [ho, ha] at hv
            cases w with
            | arr vs =>
              simp only [Option.map_eq_some_iff] at hv
              obtain ⟨b, hb, rfl⟩ := hv
              obtain ⟨g, ⟨a', ha', hg⟩, l, ⟨y, hy, hl⟩, hx⟩ := hx
              have e1 := right_agrees ops vars o false _ a' h1 ho ha'
              have e2 := right_agrees ops vars a false _ y h2 ha hy
              simp only [Agrees, Bool.false_eq_true, if_false] at e1 e2
              subst e1 e2
              simp only [enc, member, getProp, getElem, toNum, k1, k2, Bool.true_or, if_true, toStr, Option.map_some,
                Option.some.injEq] at hg
              subst hg
              refine agrees_of ops ?_ (by simp [notNaN])
              rw [← hx, ← hl]
              simp only [enc]
              rw [includes_enc ops u vs b (h3 vs u ho ha) hb]
            | _ => simp at hv
    | _ => simp [Right] at h
  | .cond _ _ _, truth, v, x, h, hv, hx => by simp [Right] at h
  | .paren e, truth, v, x, h, hv, hx => by
    rw [Right] at h; rw [eval] at hv; rw [valE] at hx
    exact right_agrees ops vars e truth v x h hv hx
  | .this, truth, v, x, h, hv, hx => by simp [Right] at h
theorem rights_agree (ops : Ops F) (vars : String → Option (JV F)) : ∀ (es : Exprs F) (vs : JVs F) (l : List (Val F)),
    Rights ops vars es → evals ops vars es = some vs → valEs ops (encVars vars) es = some l → Vals.ofList l = encs vs
  | .nil, vs, l, h, hv, hx => by
    simp [evals] at hv; simp [valEs] at hx
    simp [← hv, hx, Vals.ofList, encs]
  | .cons e r, vs, l, h, hv, hx => by
    rw [Rights] at h
    rw [evals] at hv
    cases he : eval ops vars e with
    | none => rw [he] at hv; cases hv
    | some w =>
      cases hr : evals ops vars r with
      | none => rw [he, hr] at hv; cases hv
      | some ws =>
        rw [he, hr] at hv
        simp only [Option.some.injEq] at hv
        simp only [valEs, Option.bind_eq_some_iff, Option.map_eq_some_iff] at hx
        obtain ⟨a, ha, l', hl', rfl⟩ := hx
        have e1 := right_agrees ops vars e false w a h.1 he ha
        have e2 := rights_agree ops vars r ws l' h.2 hr hl'
        simp only [Agrees, Bool.false_eq_true, if_false] at e1
        rw [← hv, Vals.ofList, encs, e1, e2]
  | .hole r, vs, l, h, hv, hx => by simp [Rights] at h
end

end Mole.Exec
