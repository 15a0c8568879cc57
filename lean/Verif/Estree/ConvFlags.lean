import Verif.Estree.ConvSpec
/-! # C73: only what is a generator, or async, is said to be one

The reader of ConvSpec.lean does not ask for these flags where they are the same for every node of a type; here they are. -/

namespace Mole.Estree.Conv

/-- Is the node a generator function?  Parentheses do not count. -/
def isGen : Node → Bool
  | .mk _ (.fn _ _ gen _ _ _) | .mk _ (.fnT _ _ gen _ _ _ _ _) => gen
  | .mk _ (.paren e) | .mk _ (.paramProp _ _ _ _ _ e) => isGen e
  | _ => false

/-- Is the node an async function? -/
def isAsync : Node → Bool
  | .mk _ (.fn _ _ _ async _ _) | .mk _ (.fnT _ _ _ async _ _ _ _) => async
  | .mk _ (.arrow async _ _ _) | .mk _ (.arrowT async _ _ _ _ _) => async
  | .mk _ (.tsDecFn _ _ async _ _ _ _) => async
  | .mk _ (.paren e) | .mk _ (.paramProp _ _ _ _ _ e) => isAsync e
  | _ => false

/-- Has the node a flag that says so? -/
def J.says (j : J) (key : String) : Prop := j.get key = some (.bool true)

set_option maxHeartbeats 4000000 in
/-- **C73.** What the output says to be a generator is one in the tree. -/
theorem generator_says : ∀ t : Node, (convert t).says "generator" → isGen t = true
  | .nil, h => by simp [convert, J.says, J.get] at h
  | .mk rng k, h => by
    cases k with
    | paren e =>
      simp only [convert, convertK] at h
      simpa [isGen] using generator_says e h
    | paramProp acc readonly override begin decs e =>
      simp only [convert, convertK] at h
      split at h
      · simp [J.says, J.get, ob, look] at h
      · simpa [isGen] using generator_says e h
    | tpl tag elems =>
      cases tag <;> simp [convert, convertK, J.says, J.get, ob, look] at h
      rename_i r k
      cases k <;> simp [tagArgs, look] at h
    | exportDec typ all deflt dec specs src =>
      cases all <;> cases deflt <;> simp [convert, convertK, J.says, J.get, ob, look] at h
      cases dec with
      | nil => simp [exportDecl, ob, look] at h
      | mk r k => cases k <;> simp [exportDecl, ob, look] at h
    | _ =>
      simp only [convert, convertK] at h
      (repeat' split at h) <;> simp_all [J.says, J.get, ob, look, isGen]

set_option maxHeartbeats 4000000 in
/-- **C73.** What the output says to be async is so in the tree. -/
theorem async_says : ∀ t : Node, (convert t).says "async" → isAsync t = true
  | .nil, h => by simp [convert, J.says, J.get] at h
  | .mk rng k, h => by
    cases k with
    | paren e =>
      simp only [convert, convertK] at h
      simpa [isAsync] using async_says e h
    | paramProp acc readonly override begin decs e =>
      simp only [convert, convertK] at h
      split at h
      · simp [J.says, J.get, ob, look] at h
      · simpa [isAsync] using async_says e h
    | tpl tag elems =>
      cases tag <;> simp [convert, convertK, J.says, J.get, ob, look] at h
      rename_i r k
      cases k <;> simp [tagArgs, look] at h
    | exportDec typ all deflt dec specs src =>
      cases all <;> cases deflt <;> simp [convert, convertK, J.says, J.get, ob, look] at h
      cases dec with
      | nil => simp [exportDecl, ob, look] at h
      | mk r k => cases k <;> simp [exportDecl, ob, look] at h
    | _ =>
      simp only [convert, convertK] at h
      (repeat' split at h) <;> simp_all [J.says, J.get, ob, look, isAsync]

/-- `(async function* () {})` is said to be both. -/
def both : Node := .mk (0, 24) (.paren (.mk (1, 23) (.fn true .nil true true .nil (.mk (21, 23) (.block .nil)))))

example : (convert both).says "generator" ∧ (convert both).says "async" ∧ isGen both = true ∧ isAsync both = true := by
  simp [both, convert, convertK, J.says, J.get, ob, look, isGen, isAsync]

end Mole.Estree.Conv
