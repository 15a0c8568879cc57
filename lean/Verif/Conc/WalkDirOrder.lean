import Verif.Conc.WalkDirProps

/-! # The order of calls within a directory (C63) -/

namespace Mole.Conc.Spec

open Mole.Conc

/-- The files directly in a directory, in order. -/
def filesE : Ents → List (String × Bool)
  | .nil => []
  | .file p rest => (p, false) :: filesE rest
  | .dir _ rest => filesE rest

/-- A directory and the files directly in it. -/
def own : Dir → List (String × Bool)
  | .mk p _ es => (p, true) :: filesE es

mutual
/-- A directory and all below it. -/
def dirs : Dir → List Dir
  | .mk p ok es => .mk p ok es :: dirsE es
def dirsE : Ents → List Dir
  | .nil => []
  | .file _ rest => dirsE rest
  | .dir d rest => dirs d ++ dirsE rest
end

end Mole.Conc.Spec

namespace Mole.Conc

open Mole.Conc.Spec

/-- The directories a worker has not come to yet. -/
def later : PC → List Dir
  | .read d => dirs d
  | .stopErr d | .failed d => dirs d
  | .handle _ _ es | .inHandler _ es | .loop es | .pushed es => dirsE es
  | .added d es => dirs d ++ dirsE es
  | _ => []

/-- The calls a worker has still to make for its directory. -/
def remaining : PC → List (String × Bool)
  | .handle p b es => (p, b) :: filesE es
  | .inHandler _ es | .loop es | .pushed es | .added _ es => filesE es
  | _ => []

/-- How far a directory has come. -/
def Seen (s : St) (d : Dir) : Prop :=
  s.main.early = true ∨ (∃ q ∈ s.sh.queue, d ∈ dirs q) ∨ (∃ q ∈ s.sh.dropped, d ∈ dirs q) ∨ (∃ w ∈ s.workers, d ∈ later w) ∨
    (∃ w ∈ s.workers, ∃ pre, own d = pre ++ remaining w ∧ pre.Sublist s.sh.log) ∨ (own d).Sublist s.sh.log

/-- What one worker's step does to the directories it knows and to the calls. -/
theorem work_order {stops : String → Nat} {sh sh' : Shared} {pc pc' : PC} (hs : work stops sh pc = some (sh', pc')) (d : Dir) :
    (∀ {x}, x ∈ sh.log → x ∈ sh'.log) ∧ sh.log.Sublist sh'.log ∧
    ((∃ q ∈ sh.queue, d ∈ dirs q) → (∃ q ∈ sh'.queue, d ∈ dirs q) ∨ (∃ q ∈ sh'.dropped, d ∈ dirs q) ∨ d ∈ later pc') ∧
    (∀ q ∈ sh.dropped, q ∈ sh'.dropped) ∧
    (d ∈ later pc → (∃ q ∈ sh'.queue, d ∈ dirs q) ∨ d ∈ later pc' ∨ own d = remaining pc') ∧
    (∀ pre, own d = pre ++ remaining pc → pre.Sublist sh.log →
      (∃ pre', own d = pre' ++ remaining pc' ∧ pre'.Sublist sh'.log) ∨ (own d).Sublist sh'.log) := by
  have keep : ∀ {q : List Dir}, (∃ x ∈ q, d ∈ dirs x) → ∀ y, (∃ x ∈ q ++ [y], d ∈ dirs x) :=
    fun ⟨x, hx, h⟩ y => ⟨x, List.mem_append_left _ hx, h⟩
  cases pc with
  | check =>
    simp only [work] at hs
    split at hs <;> cases hs <;>
      exact ⟨id, .refl _, .inl, fun _ h => h, fun h => by simp [later] at h,
        fun pre h1 h2 => .inr (by rw [h1]; simpa [remaining] using h2)⟩
  | take =>
    simp only [work] at hs
    split at hs
    · rename_i e
      cases hs
      exact ⟨id, .refl _, .inl, fun _ h => h, fun h => by simp [later] at h,
        fun pre h1 h2 => .inr (by rw [h1]; simpa [remaining] using h2)⟩
    · rename_i x q e
      split at hs <;> cases hs
      · refine ⟨id, .refl _, ?_, fun _ h => List.mem_cons_of_mem _ h, fun h => by simp [later] at h,
          fun pre h1 h2 => .inr (by rw [h1]; simpa [remaining] using h2)⟩
        rw [e]
        rintro ⟨y, hy, h⟩
        rcases List.mem_cons.mp hy with rfl | hy
        · exact .inr (.inl ⟨y, List.mem_cons_self .., h⟩)
        · exact .inl ⟨y, hy, h⟩
      · refine ⟨id, .refl _, ?_, fun _ h => h, fun h => by simp [later] at h,
          fun pre h1 h2 => .inr (by rw [h1]; simpa [remaining] using h2)⟩
        rw [e]
        rintro ⟨y, hy, h⟩
        rcases List.mem_cons.mp hy with rfl | hy
        · exact .inr (.inr h)
        · exact .inl ⟨y, hy, h⟩
  | read x =>
    obtain ⟨p, ok, es⟩ := x
    simp only [work] at hs
    split at hs <;> cases hs
    · refine ⟨id, .refl _, .inl, fun _ h => h, ?_, fun pre h1 h2 => .inr (by rw [h1]; simpa [remaining] using h2)⟩
      intro h
      rw [later, dirs] at h
      rcases List.mem_cons.mp h with rfl | h
      · exact .inr (.inr rfl)
      · exact .inr (.inl h)
    · exact ⟨id, .refl _, .inl, fun _ h => h, fun h => .inr (.inl h),
        fun pre h1 h2 => .inr (by rw [h1]; simpa [remaining] using h2)⟩
  | handle p b es =>
    simp only [work] at hs
    cases hs
    refine ⟨fun h => List.mem_append_left _ h, List.sublist_append_left .., .inl, fun _ h => h, fun h => .inr (.inl h),
      fun pre h1 h2 => .inl ⟨pre ++ [(p, b)], by rw [h1]; simp [remaining], h2.append (.refl _)⟩⟩
  | inHandler n es =>
    cases n with
    | zero =>
      simp only [work] at hs
      cases hs
      exact ⟨id, .refl _, .inl, fun _ h => h, fun h => .inr (.inl h), fun pre h1 h2 => .inl ⟨pre, h1, h2⟩⟩
    | succ n => simp [work] at hs
  | loop es =>
    cases es with
    | nil =>
      simp only [work] at hs
      split at hs <;> cases hs <;>
        exact ⟨id, .refl _, .inl, fun _ h => h, fun h => by simp [later, dirsE] at h,
          fun pre h1 h2 => .inr (by rw [h1]; simpa [remaining, filesE] using h2)⟩
    | file p es =>
      simp only [work] at hs
      cases hs
      exact ⟨id, .refl _, .inl, fun _ h => h, fun h => .inr (.inl (by simpa [later, dirsE] using h)),
        fun pre h1 h2 => .inl ⟨pre, by simpa [remaining, filesE] using h1, h2⟩⟩
    | dir x es =>
      simp only [work] at hs
      cases hs
      exact ⟨id, .refl _, .inl, fun _ h => h, fun h => .inr (.inl (by simpa [later, dirsE] using h)),
        fun pre h1 h2 => .inl ⟨pre, by simpa [remaining, filesE] using h1, h2⟩⟩
  | added x es =>
    simp only [work] at hs
    cases hs
    refine ⟨id, .refl _, fun h => .inl (keep h x), fun _ h => h, ?_, fun pre h1 h2 => .inl ⟨pre, h1, h2⟩⟩
    intro h
    rw [later] at h
    rcases List.mem_append.mp h with h | h
    · exact .inl ⟨x, by simp, h⟩
    · exact .inr (.inl h)
  | pushed es =>
    simp only [work] at hs
    cases hs
    exact ⟨id, .refl _, .inl, fun _ h => h, fun h => .inr (.inl h), fun pre h1 h2 => .inl ⟨pre, h1, h2⟩⟩
  | idle => simp [work] at hs
  | stopErr d => simp [work] at hs
  | failed d => simp [work] at hs
  | finished => simp [work] at hs

/-- Replacing a worker by one that knows as much. -/
theorem seen_replace {s s' : St} {d : Dir} {l r : List PC} {a b : PC} (h : Seen s d) (hw : s.workers = l ++ a :: r)
    (hw' : s'.workers = l ++ b :: r) (hm : s.main.early = false) (hq : s'.sh.queue = s.sh.queue)
    (hd : s'.sh.dropped = s.sh.dropped) (hl : s'.sh.log = s.sh.log) (h1 : later b = later a)
    (h2 : remaining b = remaining a) : Seen s' d := by
  unfold Seen at h ⊢
  rw [hw, hm] at h
  rw [hw', hq, hd, hl]
  rcases h with h | h | h | ⟨w, hx, h⟩ | ⟨w, hx, h⟩ | h
  · cases h
  · exact .inr (.inl h)
  · exact .inr (.inr (.inl h))
  · refine .inr (.inr (.inr (.inl ?_)))
    simp only [List.mem_append, List.mem_cons] at hx ⊢
    rcases hx with hx | rfl | hx
    · exact ⟨w, .inl hx, h⟩
    · exact ⟨b, .inr (.inl rfl), h1 ▸ h⟩
    · exact ⟨w, .inr (.inr hx), h⟩
  · refine .inr (.inr (.inr (.inr (.inl ?_))))
    simp only [List.mem_append, List.mem_cons] at hx ⊢
    rcases hx with hx | rfl | hx
    · exact ⟨w, .inl hx, h⟩
    · exact ⟨b, .inr (.inl rfl), h2 ▸ h⟩
    · exact ⟨w, .inr (.inr hx), h⟩
  · exact .inr (.inr (.inr (.inr (.inr h))))

theorem seen_step {root : Dir} {stops : String → Nat} {s s' : St} {d : Dir} (hd : d ∈ dirs root) (h : Seen s d)
    (st : Step root stops s s') : Seen s' d := by
  cases st with
  | work l r pc pc' sh' hw hs =>
    obtain ⟨_, k2, k3, k4, k5, k6⟩ := work_order hs d
    unfold Seen at h ⊢
    rw [hw] at h
    rcases h with h | h | ⟨q, hq, h⟩ | ⟨w, hx, h⟩ | ⟨w, hx, pre, h, h'⟩ | h
    · exact .inl h
    · rcases k3 h with h | h | h
      · exact .inr (.inl h)
      · exact .inr (.inr (.inl h))
      · exact .inr (.inr (.inr (.inl ⟨pc', by simp, h⟩)))
    · exact .inr (.inr (.inl ⟨q, k4 q hq, h⟩))
    · simp only [List.mem_append, List.mem_cons] at hx ⊢
      rcases hx with hx | rfl | hx
      · exact .inr (.inr (.inr (.inl ⟨w, .inl hx, h⟩)))
      · rcases k5 h with h | h | h
        · exact .inr (.inl h)
        · exact .inr (.inr (.inr (.inl ⟨pc', .inr (.inl rfl), h⟩)))
        · exact .inr (.inr (.inr (.inr (.inl ⟨pc', .inr (.inl rfl), [], h, List.nil_sublist _⟩))))
      · exact .inr (.inr (.inr (.inl ⟨w, .inr (.inr hx), h⟩)))
    · simp only [List.mem_append, List.mem_cons] at hx ⊢
      rcases hx with hx | rfl | hx
      · exact .inr (.inr (.inr (.inr (.inl ⟨w, .inl hx, pre, h, h'.trans k2⟩))))
      · rcases k6 pre h h' with ⟨pre', e1, e2⟩ | h
        · exact .inr (.inr (.inr (.inr (.inl ⟨pc', .inr (.inl rfl), pre', e1, e2⟩))))
        · exact .inr (.inr (.inr (.inr (.inr h))))
      · exact .inr (.inr (.inr (.inr (.inl ⟨w, .inr (.inr hx), pre, h, h'.trans k2⟩))))
    · exact .inr (.inr (.inr (.inr (.inr (h.trans k2)))))
  | job l r hw ht =>
    cases he : s.main.early with
    | true => exact .inl he
    | false => exact seen_replace h hw rfl he rfl rfl rfl rfl rfl
  | first l r hw hm => exact seen_replace h hw rfl (by simp [hm, Main.early]) rfl rfl rfl rfl rfl
  | err l r x hw hm => exact seen_replace h hw rfl (by simp [hm, Main.early]) rfl rfl rfl rfl rfl
  | stop l r n es hw hm => exact seen_replace h hw rfl (by simp [hm, Main.early]) rfl rfl rfl rfl rfl
  | fin l r hw hm => exact seen_replace h hw rfl (by simp [hm, Main.early]) rfl rfl rfl rfl rfl
  | start hm => exact .inl rfl
  | push hm => exact .inr (.inl ⟨root, by simp, hd⟩)
  | spawn hm => simpa [Seen, hm, Main.early] using h
  | wait hw hg => exact h
  | wgFin hw hm => simpa [Seen, hm, Main.early] using h

theorem seen {root : Dir} {stops : String → Nat} {c : Int} {s : St} (h : Reachable root stops c s) {d : Dir} (hd : d ∈ dirs root) :
    Seen s d := by
  induction h with
  | init => exact .inl rfl
  | step _ st ih => exact seen_step hd ih st

/-- **C63**.  If every directory can be read and the handler does not call Stop, then when Walk has returned, the handler
has, for every directory, been called for the directory first and then for the files in it, in the directory's order. -/
theorem walk_order (root : Dir) (stops : String → Nat) (c : Int) (hr : AllReadable root)
    (hs : ∀ e ∈ entries root, stops e.1 = 0) (s : St) (h : Reachable root stops c s) (hm : s.main = .returned) :
    ∀ d ∈ dirs root, (own d).Sublist s.sh.log := by
  intro d hd
  obtain ⟨hq, hdr, hh⟩ := returned_quiet root stops c hr hs s h hm
  have hz : ∀ w ∈ s.workers, holds w = 0 := total_mem hh
  rcases seen h hd with h | ⟨q, h, _⟩ | ⟨q, h, _⟩ | ⟨w, hw, h⟩ | ⟨w, hw, pre, h, h'⟩ | h
  · rw [hm] at h; cases h
  · rw [hq] at h; cases h
  · rw [hdr] at h; cases h
  · have := hz w hw
    cases w <;> simp_all [holds, later]
  · have := hz w hw
    have h0 : remaining w = [] := by cases w <;> simp_all [holds, remaining]
    rw [h, h0, List.append_nil]
    exact h'
  · exact h

example : dirs sample = [sample, .mk "a/b" true (.file "a/b/y" .nil)] ∧ own sample = [("a", true), ("a/x", false)] := by
  simp [sample, dirs, dirsE, own, filesE]

end Mole.Conc
