import Verif.Lexer.Jsx
import Verif.Lexer.Name
/-!
# C16: HTML entities in JSX text
-/
namespace Mole.Lexer

/-- A named reference: `&`, ASCII letters and digits, `;`. -/
def IsRef (k : List Nat) : Prop :=
  ∃ n, k = '&'.toNat :: n ++ [';'.toNat] ∧
    ∀ c ∈ n, ('a'.toNat ≤ c ∧ c ≤ 'z'.toNat) ∨ ('A'.toNat ≤ c ∧ c ≤ 'Z'.toNat) ∨
      ('0'.toNat ≤ c ∧ c ≤ '9'.toNat)

/-- `JsxText ents refs src text`: the source `src` of a JSX text whose references are all in
`refs`, and the text it stands for. -/
inductive JsxText (ents : List Nat → Option (List Nat)) (refs : List Nat → Prop) :
    List Nat → List Nat → Prop
  | nil : JsxText ents refs [] []
  | ch {c s v} : c ∉ ['&'.toNat, '{'.toNat, '<'.toNat, 0x0d] → (c < 0xD800 ∨ (0xE000 ≤ c ∧ c ≤ 0x10FFFF)) →
      JsxText ents refs s v → JsxText ents refs (c :: s) (c :: v)
  | ref {k ed s v} : refs k → IsRef k → ents k = some ed → JsxText ents refs s v →
      JsxText ents refs (k ++ s) (ed ++ v)

theorem utf8Bytes_ascii {c : Nat} (h : c < 0x80) : utf8Bytes c = [c] := by
  have : appendRune c = c := by
    simp only [appendRune]
    rw [if_neg]
    simp only [Bool.or_eq_true, Bool.and_eq_true, decide_eq_true_eq]
    omega
  simp only [utf8Bytes, this, if_pos h]

/-- The characters of a reference's name go to the buffer. -/
theorem jsxLoop_name (ents : List Nat → Option (List Nat)) (n : List Nat)
    (hn : ∀ c ∈ n, (97 ≤ c ∧ c ≤ 122) ∨ (65 ≤ c ∧ c ≤ 90) ∨ (48 ≤ c ∧ c ≤ 57))
    (fuel i : Nat) (hi : 0 < i) (entity rs s : List Nat) :
    jsxLoop ents (fuel + n.length) i entity rs (n ++ s) =
      jsxLoop ents fuel (i + n.length) (entity ++ n) rs s := by
  induction n generalizing i entity with
  | nil => simp
  | cons c n ih =>
    have hc := hn c (by simp)
    have h1 : ¬ (c = 123 ∨ c = 60) := by omega
    have h2 : ¬ c = 59 := by omega
    have h3 : c ≠ 0x0d := by omega
    have h4 : c < 0x80 := by omega
    rw [List.length_cons, ← Nat.add_assoc, List.cons_append]
    simp only [jsxLoop]
    rw [if_neg h1, if_pos (Or.inr hi), if_neg h2, rd_cons h3, utf8Bytes_ascii h4,
      ih (fun x hx => hn x (by simp [hx])) (i + 1) (by omega)]
    simp [Nat.add_assoc, Nat.add_comm 1]

/-- One reference, with what the buffer holds before it. -/
theorem jsxLoop_ref (ents : List Nat → Option (List Nat)) (k : List Nat) (hk : IsRef k)
    (fuel : Nat) (entity rs s : List Nat) :
    jsxLoop ents (fuel + k.length) 0 entity rs (k ++ s) =
      match ents ((entity ++ k).take k.length) with
      | some ed => jsxLoop ents fuel 0 (entity ++ k) (rs ++ ed) s
      | none => some (.error .jsxUndefinedEntity) := by
  obtain ⟨n, rfl, hn⟩ := hk
  have hl : ('&'.toNat :: n ++ [';'.toNat]).length = n.length + 2 := by simp
  rw [hl, show fuel + (n.length + 2) = fuel + 1 + n.length + 1 by omega]
  show jsxLoop ents (fuel + 1 + n.length + 1) 0 entity rs (38 :: (n ++ [59] ++ s)) = _
  simp only [jsxLoop]
  rw [if_neg (by decide), if_pos (Or.inl trivial), if_neg (by decide), rd_cons (by decide),
    utf8Bytes_ascii (by decide), List.append_assoc n, jsxLoop_name ents n hn _ _ (by omega)]
  show jsxLoop ents (fuel + 1) _ _ _ (59 :: s) = _
  simp only [jsxLoop]
  rw [if_neg (by decide), if_pos (Or.inr (by omega)), if_pos trivial, rd_cons (by decide),
    utf8Bytes_ascii (by decide)]
  have e1 : entity ++ [38] ++ n ++ [59] = entity ++ ('&'.toNat :: n ++ [';'.toNat]) := by simp
  have e2 : 0 + 1 + n.length + 1 = n.length + 2 := by omega
  rw [e1, e2]
  cases ents (List.take (n.length + 2) (entity ++ ('&'.toNat :: n ++ [';'.toNat]))) <;> rfl

theorem jsxLoop_ch (ents : List Nat → Option (List Nat)) {c : Nat}
    (hc : c ∉ ['&'.toNat, '{'.toNat, '<'.toNat, 0x0d])
    (hs : c < 0xD800 ∨ (0xE000 ≤ c ∧ c ≤ 0x10FFFF)) (fuel : Nat) (entity rs s : List Nat) :
    jsxLoop ents (fuel + 1) 0 entity rs (c :: s) = jsxLoop ents fuel 0 entity (rs ++ [c]) s := by
  have h : ¬ c = 38 ∧ ¬ c = 123 ∧ ¬ c = 60 ∧ ¬ c = 13 := by simpa using hc
  have ha : appendRune c = c := by
    simp only [appendRune]
    rw [if_neg]
    simp only [Bool.or_eq_true, Bool.and_eq_true, decide_eq_true_eq]
    omega
  simp only [jsxLoop]
  rw [if_neg (by omega), if_neg (by omega), rd_cons h.2.2.2]
  simp only [ha]

theorem jsxLoop_complete (ents : List Nat → Option (List Nat)) (k : List Nat) (src v : List Nat)
    (h : JsxText ents (fun k' => k' = k) src v) (e : Nat) (rest : List Nat)
    (he : e = 123 ∨ e = 60) :
    ∀ fuel entity rs, (src ++ e :: rest).length < fuel →
      (∃ m, entity = (List.replicate m k).flatten) →
      jsxLoop ents fuel 0 entity rs (src ++ e :: rest) = some (.ok (.txt (rs ++ v) (e :: rest))) := by
  induction h with
  | nil =>
    intro fuel entity rs hf _
    cases fuel with
    | zero => omega
    | succ fuel => simp [jsxLoop, he]
  | ch hc hs _ ih =>
    intro fuel entity rs hf hm
    cases fuel with
    | zero => omega
    | succ fuel =>
      simp only [List.cons_append, List.length_cons] at hf
      rw [List.cons_append, jsxLoop_ch ents hc hs, ih fuel entity _ (by omega) hm]
      simp
  | ref hk hr hed _ ih =>
    rename_i k' ed s v _
    intro fuel entity rs hf hm
    obtain ⟨m, rfl⟩ := hm
    subst hk
    have hl : 0 < k'.length := by
      obtain ⟨n, rfl, -⟩ := hr
      simp
    simp only [List.append_assoc, List.length_append] at hf
    obtain ⟨f, rfl⟩ : ∃ f, fuel = f + k'.length := ⟨fuel - k'.length, by omega⟩
    have htake : ((List.replicate m k').flatten ++ k').take k'.length = k' := by
      cases m with
      | zero => simp
      | succ m => simp [List.replicate_succ]
    rw [List.append_assoc, jsxLoop_ref ents k' hr, htake, hed]
    simp only
    rw [ih f _ _ (by simp only [List.length_append]; omega)
      ⟨m + 1, by rw [List.replicate_succ']; simp⟩]
    simp

/-- **C16** (partial: the references of one text have to be the same, `refs := fun k' => k' = k`
instead of `refs := fun _ => True`; and `&` has to start one).  A text whose references all are
`k` is decoded: everything else stands for itself and each `k` for its character. -/
theorem readJSXTxt_partial (ents : List Nat → Option (List Nat)) (k pre src v : List Nat)
    (h : JsxText ents (fun k' => k' = k) src v) (e : Nat) (rest : List Nat)
    (he : e = '{'.toNat ∨ e = '<'.toNat) :
    readJSXTxt ents pre (src ++ e :: rest) = some (.ok (.txt (pre ++ v) (e :: rest))) := by
  unfold readJSXTxt
  rw [jsxLoop_complete ents k src v h e rest he ((src ++ e :: rest).length + 1) [] [] (Nat.lt_succ_self _) ⟨0, rfl⟩]
  simp

/-- What the code does with a second reference: it is looked up under the *first* one's text cut
or extended to its own length. -/
theorem second_reference (ents : List Nat → Option (List Nat)) (a b : List Nat) (ha : IsRef a)
    (hb : IsRef b) (va : List Nat) (hva : ents a = some va) (rest : List Nat) :
    readJSXTxt ents [] (a ++ (b ++ '<'.toNat :: rest)) =
      match ents ((a ++ b).take b.length) with
      | some vb => some (.ok (.txt (va ++ vb) ('<'.toNat :: rest)))
      | none => some (.error .jsxUndefinedEntity) := by
  unfold readJSXTxt
  have hf : (a ++ (b ++ '<'.toNat :: rest)).length + 1 = rest.length + 2 + b.length + a.length := by
    simp; omega
  rw [hf, jsxLoop_ref ents a ha]
  rw [List.nil_append, List.take_length, hva]
  simp only
  rw [jsxLoop_ref ents b hb]
  cases ents ((a ++ b).take b.length) with
  | none => rfl
  | some vb =>
    have : jsxLoop ents (rest.length + 2) 0 (a ++ b) ([] ++ va ++ vb) ('<'.toNat :: rest) =
        some (.ok (.txt ([] ++ va ++ vb) ('<'.toNat :: rest))) := by
      show jsxLoop ents (rest.length + 1 + 1) 0 (a ++ b) ([] ++ va ++ vb) (60 :: rest) = _
      simp [jsxLoop]
    simp only [this]
    simp

/-- A table with the entries of `HTMLEntities` for `<`, `>` and `&`. -/
def someEnts (k : List Nat) : Option (List Nat) :=
  if k = str "&lt;" then some [60] else if k = str "&gt;" then some [62]
  else if k = str "&amp;" then some [38] else none

/-- **C16 is violated**: `&lt;&gt;` is read as `<<`. -/
theorem independent_violated :
    readJSXTxt someEnts [] (str "&lt;&gt;<") = some (.ok (.txt (str "<<") (str "<"))) := rfl

/-- **C16 is violated**: `&lt;&amp;` is an error. -/
theorem second_unknown_violated :
    readJSXTxt someEnts [] (str "&lt;&amp;<") = some (.error .jsxUndefinedEntity) := rfl

/-- **C16 is violated**: from an ampersand that starts no reference on, text is lost. -/
theorem ampersand_violated :
    readJSXTxt someEnts [] (str "a & b<") = some (.ok (.txt (str "a ") (str "<"))) := rfl

/-- **C16 is violated**: numeric references are errors (the table has none). -/
theorem numeric_violated :
    readJSXTxt someEnts [] (str "&#38;<") = some (.error .jsxUndefinedEntity) := rfl

theorem rd_lt (c : Nat) (t : List Nat) : (rd (c :: t)).2.length < (c :: t).length :=
  rd_length_lt (by simp)

/-- **C16.** Reading JSX text always ends. -/
theorem readJSXTxt_terminates (ents : List Nat → Option (List Nat)) (pre s : List Nat) :
    ∃ r, readJSXTxt ents pre s = some r := by
  have key : ∀ fuel i entity rs s, s.length < fuel → ∃ r, jsxLoop ents fuel i entity rs s = some r := by
    intro fuel
    induction fuel with
    | zero => intro i entity rs s h; omega
    | succ fuel ih =>
      intro i entity rs s h
      cases s with
      | nil =>
        simp only [jsxLoop]
        split <;> exact ⟨_, rfl⟩
      | cons c t =>
        have hr := rd_lt c t
        simp only [jsxLoop]
        split
        · exact ⟨_, rfl⟩
        split
        · split
          · split
            · exact ih _ _ _ _ (by omega)
            · exact ⟨_, rfl⟩
          · exact ih _ _ _ _ (by omega)
        · split
          · rename_i r rest heq
            rw [heq] at hr
            exact ih _ _ _ _ (by simp only at hr; omega)
          · rename_i rest heq
            rw [heq] at hr
            exact ih _ _ _ _ (by simp only at hr; omega)
  obtain ⟨r, hr⟩ := key (s.length + 1) 0 [] [] s (Nat.lt_succ_self _)
  unfold readJSXTxt
  rw [hr]
  split
  · exact ⟨_, rfl⟩
  · exact ⟨_, rfl⟩

example : readJSXTxt someEnts [] (str "a&lt;b&lt;{") = some (.ok (.txt (str "a<b<") (str "{"))) := rfl

end Mole.Lexer
