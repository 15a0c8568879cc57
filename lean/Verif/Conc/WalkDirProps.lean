import Verif.Conc.WalkDirInv

/-! # Properties of the directory walk (C44, C45) -/

namespace Mole.Conc

open Mole.Conc.Spec

theorem total_zero {f g : PC → Nat} (hfg : ∀ w, f w = 0 → g w = 0) : ∀ {l : List PC}, total f l = 0 → total g l = 0
  | [], _ => rfl
  | w :: l, h => by
    simp only [total, List.map_cons, List.sum_cons] at h ⊢
    have := hfg w (by omega)
    have := total_zero hfg (l := l) (by simp only [total]; omega)
    simp only [total] at this
    omega

theorem toDo_zero (e : String × Bool) : ∀ w, holds w = 0 → toDo e w = 0 := by
  intro w h
  cases w <;> simp_all [holds, toDo]

mutual
theorem no_troubles (stops : String → Nat) : ∀ d, AllReadable d → (∀ e ∈ entries d, stops e.1 = 0) → troubles stops d = 0
  | .mk p ok es, h1, h2 => by
    rw [AllReadable] at h1
    rw [entries] at h2
    rw [troubles, if_pos h1.1, h2 (p, true) (List.mem_cons_self ..),
      no_troublesE stops es h1.2 (fun e he => h2 e (List.mem_cons_of_mem _ he))]
theorem no_troublesE (stops : String → Nat) : ∀ es, AllReadableE es → (∀ e ∈ entriesE es, stops e.1 = 0) → troublesE stops es = 0
  | .nil, _, _ => rfl
  | .file p es, h1, h2 => by
    rw [AllReadableE] at h1
    rw [entriesE] at h2
    rw [troublesE, h2 (p, false) (List.mem_cons_self ..), no_troublesE stops es h1 (fun e he => h2 e (List.mem_cons_of_mem _ he))]
  | .dir d es, h1, h2 => by
    rw [AllReadableE] at h1
    rw [entriesE] at h2
    rw [troublesE, no_troubles stops d h1.1 (fun e he => h2 e (List.mem_append_left _ he)),
      no_troublesE stops es h1.2 (fun e he => h2 e (List.mem_append_right _ he))]
end

theorem total_mem {f : PC → Nat} : ∀ {l : List PC}, total f l = 0 → ∀ w ∈ l, f w = 0
  | [], _, w, hw => by cases hw
  | v :: l, h, w, hw => by
    simp only [total, List.map_cons, List.sum_cons] at h
    rcases List.mem_cons.mp hw with rfl | hw
    · omega
    · exact total_mem (l := l) (by simp only [total]; omega) w hw

/-- When Walk has returned without errors, nothing is left. -/
theorem returned_quiet (root : Dir) (stops : String → Nat) (c : Int) (hr : AllReadable root)
    (hs : ∀ e ∈ entries root, stops e.1 = 0) (s : St) (h : Reachable root stops c s) (hm : s.main = .returned) :
    s.sh.queue = [] ∧ s.sh.dropped = [] ∧ total holds s.workers = 0 := by
  have i := inv h
  have i2 := inv2 h
  have ht := no_troubles stops root hr hs
  have hst : s.stopped = false := by
    cases hst : s.stopped with
    | false => rfl
    | true => have := i2.stopped hst; omega
  have hw : s.waiter = .done := by
    rcases i.ended (.inr hm) with h | h
    · rw [hst] at h; cases h
    · exact h
  have h0 := i.zero (.inr hw)
  have h1 := i.wg
  rw [h0] at h1
  exact ⟨List.eq_nil_of_length_eq_zero (by omega), List.eq_nil_of_length_eq_zero (by omega), by omega⟩

/-- **C44, completeness**.  If every directory can be read and the handler does not call Stop, then whenever Walk has
returned the handler has been called exactly once for every entry, whatever the number of workers and the schedule. -/
theorem walk_exactly_once (root : Dir) (stops : String → Nat) (c : Int) (hr : AllReadable root)
    (hs : ∀ e ∈ entries root, stops e.1 = 0) (s : St) (h : Reachable root stops c s) (hm : s.main = .returned) :
    s.sh.log.Perm (entries root) := by
  obtain ⟨hq, hd, hh⟩ := returned_quiet root stops c hr hs s h hm
  rw [List.perm_iff_count]
  intro e
  have h2 := (inv2 h).count e
  rw [hq, hd, total_zero (toDo_zero e) hh, hm] at h2
  simpa [Main.early] using h2

/-- **C44, no entry twice**.  At any time, in any walk, with or without failures and calls of Stop, the handler has been
called for no entry more often than it is in the tree. -/
theorem walk_at_most_once (root : Dir) (stops : String → Nat) (c : Int) (s : St) (h : Reachable root stops c s) (e : String × Bool) :
    s.sh.log.count e ≤ (entries root).count e := by
  have := (inv2 h).count e
  omega

/-- **C44, jobs**.  No worker ever takes a job from an empty queue, nor is the WaitGroup's counter ever negative. -/
theorem walk_no_panic (root : Dir) (stops : String → Nat) (c : Int) (s : St) (h : Reachable root stops c s) : s.sh.panicked = false :=
  (inv h).safe

/-- **C45, termination**.  No schedule lets a walk go on for ever. -/
theorem walk_terminates (root : Dir) (stops : String → Nat) (c : Int) :
    ¬ ∃ f : Nat → St, f 0 = newDirWalker c ∧ ∀ n, Step root stops (f n) (f (n + 1)) := by
  rintro ⟨f, h0, hf⟩
  have hr : ∀ n, Reachable root stops c (f n) := by
    intro n
    induction n with
    | zero => rw [h0]; exact .init
    | succ n ih => exact .step ih (hf n)
  have hlt : ∀ n, measure root stops (f (n + 1)) < measure root stops (f n) := by
    intro n
    refine step_measure ?_ (hf n)
    by_cases hm : (f n).main = .spawn
    · exact .inl ((inv (hr n)).absent (.inr (.inr (.inr hm))))
    · exact .inr hm
  have hle : ∀ n, measure root stops (f n) + n ≤ measure root stops (f 0) := by
    intro n
    induction n with
    | zero => omega
    | succ n ih => have := hlt n; omega
  have := hle (measure root stops (f 0) + 1)
  omega

/-- A worker that is blocked on `stop` or has returned after an error. -/
def stuck : PC → Nat
  | .stopErr _ | .failed _ | .inHandler (_ + 1) _ => 1
  | _ => 0

theorem stuck_le (stops : String → Nat) (w : PC) : stuck w ≤ trouble stops w := by
  cases w with
  | inHandler n es => cases n <;> simp only [stuck, trouble] <;> omega
  | _ => simp [stuck, trouble]

theorem total_le {f g : PC → Nat} (h : ∀ w, f w ≤ g w) : ∀ l, total f l ≤ total g l
  | [] => Nat.le_refl _
  | w :: l => by
    have := h w
    have := total_le h l
    simp only [total, List.map_cons, List.sum_cons] at *
    omega

theorem exists_free : ∀ (l : List PC), total stuck l < l.length → ∃ w ∈ l, stuck w = 0
  | [], h => by simp at h
  | w :: l, h => by
    by_cases hw : stuck w = 0
    · exact ⟨w, List.mem_cons_self .., hw⟩
    · obtain ⟨v, hv, h'⟩ := exists_free l (by simp only [total, List.map_cons, List.sum_cons, List.length_cons] at *; omega)
      exact ⟨v, List.mem_cons_of_mem _ hv, h'⟩

/-- A worker can go on by itself, waits, or has returned. -/
theorem work_cases (stops : String → Nat) (sh : Shared) (w : PC) :
    (∃ sh' w', work stops sh w = some (sh', w')) ∨ w = .idle ∨ (∃ d, w = .stopErr d) ∨ (∃ d, w = .failed d) ∨
      (∃ n es, w = .inHandler (n + 1) es) ∨ w = .finished := by
  cases w with
  | check => left; simp only [work]; split <;> simp
  | take => left; simp only [work]; split <;> (try split) <;> simp
  | read d => left; obtain ⟨p, ok, es⟩ := d; simp only [work]; split <;> simp
  | inHandler n es => cases n <;> simp [work]
  | loop es => left; cases es <;> simp only [work] <;> (try split) <;> simp
  | _ => simp [work]

/-- **C45** (partial: for directories with non-empty paths, and with fewer failing reads and calls of Stop than workers, see
the violations below).  A walk that cannot go on has returned; with `walk_terminates`, Walk returns. -/
theorem walk_returns_partial (root : Dir) (stops : String → Nat) (c : Int) (hn : Named root)
    (ht : troubles stops root < numWorkers c) (s : St) (h : Reachable root stops c s) (hmax : ∀ s', ¬ Step root stops s s') :
    s.main = .returned := by
  have i := inv h
  have i2 := inv2 h
  have i3 := inv3 hn h
  have hlen : total stuck s.workers < s.workers.length := by
    have := i2.length
    have := i2.trouble
    have := total_le (stuck_le stops) s.workers
    omega
  have hcase : ∀ w ∈ s.workers, w = .idle ∨ (∃ d, w = .stopErr d) ∨ (∃ d, w = .failed d) ∨
      (∃ n es, w = .inHandler (n + 1) es) ∨ w = .finished := by
    intro w hw
    obtain ⟨l, r, hlr⟩ := List.append_of_mem hw
    rcases work_cases stops s.sh w with ⟨sh', w', e⟩ | h
    · exact absurd (Step.work s l r w w' sh' hlr e) (hmax _)
    · exact h
  obtain ⟨w, hw, hfree⟩ := exists_free _ hlen
  obtain ⟨l, r, hlr⟩ := List.append_of_mem hw
  have hwi : w = .idle ∨ s.main = .returned := by
    rcases hcase w hw with e | ⟨d, e⟩ | ⟨d, e⟩ | ⟨n, es, e⟩ | e
    · exact .inl e
    · subst e; simp [stuck] at hfree
    · subst e; simp [stuck] at hfree
    · subst e; simp [stuck] at hfree
    · subst e; exact .inr (i.finished hw)
  rcases hwi with hwi | hwi
  · subst hwi
    cases hm : s.main with
    | start => exact absurd (Step.start s hm) (hmax _)
    | added => exact absurd (Step.push s hm) (hmax _)
    | sending => exact absurd (Step.first s l r hlr hm) (hmax _)
    | spawn => exact absurd (Step.spawn s hm) (hmax _)
    | finishing => exact absurd (Step.fin s l r hlr hm) (hmax _)
    | returned => rfl
    | loop =>
      exfalso
      have hns : s.stopped = false := by
        cases hst : s.stopped with
        | false => rfl
        | true => rcases i.begun hst with e | e <;> rw [hm] at e <;> cases e
      have hall : ∀ v ∈ s.workers, v = .idle := by
        intro v hv
        obtain ⟨l', r', hlr'⟩ := List.append_of_mem hv
        rcases hcase v hv with e | ⟨d, e⟩ | ⟨d, e⟩ | ⟨n, es, e⟩ | e
        · exact e
        · subst e; exact absurd (Step.err s l' r' d hlr' hm) (hmax _)
        · subst e; have := i.failed d hv; rw [hns] at this; cases this
        · subst e; exact absurd (Step.stop s l' r' n es hlr' hm) (hmax _)
        · subst e; have := i.finished hv; rw [hm] at this; cases this
      have hz : ∀ f : PC → Nat, f .idle = 0 → total f s.workers = 0 := by
        intro f hf
        rw [List.eq_replicate_of_mem hall]
        exact total_replicate f hf _
      have htok : s.sh.tokens = 0 := by
        rcases Nat.eq_zero_or_pos s.sh.tokens with e | e
        · exact e
        · exact absurd (Step.job s l r hlr e) (hmax _)
      have h1 := i.jobs
      have h2 := i.wg
      rw [hz _ rfl, htok, hm] at h1
      rw [hz _ rfl, hm, i3.dropped, h1] at h2
      have hwg : s.sh.wg = 0 := by simpa using h2
      cases hwt : s.waiter with
      | absent => rcases i.waits hwt with e | e | e | e <;> rw [hm] at e <;> cases e
      | waiting => exact hmax _ (Step.wait s hwt hwg)
      | sending => exact hmax _ (Step.wgFin s hwt hm)
      | done => exact i.notDone hm hwt
  · exact hwi

/-! ### Non-vacuity and violations -/

/-- A directory with a file and a subdirectory with one. -/
def sample : Dir := .mk "a" true (.file "a/x" (.dir (.mk "a/b" true (.file "a/b/y" .nil)) .nil))

example : AllReadable sample ∧ Named sample ∧ troubles (fun _ => 0) sample < numWorkers 1 ∧
    entries sample = [("a", true), ("a/x", false), ("a/b", true), ("a/b/y", false)] := by
  simp [sample, AllReadable, AllReadableE, Named, NamedE, troubles, troublesE, numWorkers, entries, entriesE]

/-- A run of the sole worker by itself. -/
def runs (stops : String → Nat) : Nat → Shared → PC → Option (Shared × PC)
  | 0, sh, pc => some (sh, pc)
  | n + 1, sh, pc => (work stops sh pc).bind fun x => runs stops n x.1 x.2

theorem reach_runs {root : Dir} {stops : String → Nat} {c : Int} : ∀ (n : Nat) (s : St) (pc : PC), Reachable root stops c s →
    s.workers = [pc] → ∀ sh' pc', runs stops n s.sh pc = some (sh', pc') → Reachable root stops c { s with workers := [pc'], sh := sh' }
  | 0, s, pc, h, hw, sh', pc', hr => by
    simp only [runs, Option.some.injEq, Prod.mk.injEq] at hr
    obtain ⟨rfl, rfl⟩ := hr
    rw [← hw]
    exact h
  | n + 1, s, pc, h, hw, sh', pc', hr => by
    simp only [runs] at hr
    obtain ⟨x, h1, h2⟩ := Option.bind_eq_some_iff.mp hr
    have := reach_runs n _ x.2 (.step h (Step.work s [] [] pc x.2 x.1 (by simpa using hw) h1)) rfl sh' pc' h2
    exact this

/-- The sole worker has the first job and Walk is in its loop. -/
theorem reach_loop (root : Dir) (stops : String → Nat) : Reachable root stops 1
    { main := .loop, waiter := .waiting, workers := [.check], sh := { queue := [root], wg := 1 } } := by
  have h0 : Reachable root stops 1 { workers := [.idle] } := .init
  have h1 := Reachable.step h0 (Step.start _ rfl)
  have h2 := Reachable.step h1 (Step.push _ rfl)
  have h3 := Reachable.step h2 (Step.first _ [] [] rfl rfl)
  exact Reachable.step h3 (Step.spawn _ rfl)

/-- The hypotheses of `walk_exactly_once` are met: Walk returns from `sample`. -/
example : ∃ s, Reachable sample (fun _ => 0) 1 s ∧ s.main = .returned := by
  have h1 := reach_runs 12 _ _ (reach_loop sample (fun _ => 0)) rfl
    { tokens := 1, wg := 1, queue := [.mk "a/b" true (.file "a/b/y" .nil)], log := [("a", true), ("a/x", false)] } .idle (by rfl)
  have h2 := Reachable.step h1 (Step.job _ [] [] rfl (by simp))
  have h3 := reach_runs 9 _ _ h2 rfl { log := [("a", true), ("a/x", false), ("a/b", true), ("a/b/y", false)] } .idle (by rfl)
  have h4 := Reachable.step h3 (Step.wait _ rfl rfl)
  have h5 := Reachable.step h4 (Step.wgFin _ rfl rfl)
  exact ⟨_, Reachable.step h5 (Step.fin _ [] [] rfl rfl), rfl⟩

/-- A state in which Walk has not returned and nothing can happen any more. -/
def Deadlock (root : Dir) (stops : String → Nat) (s : St) : Prop := s.main ≠ .returned ∧ ∀ s', ¬ Step root stops s s'

theorem single {l r : List PC} {a b : PC} (h : [a] = l ++ b :: r) : b = a := by
  cases l with
  | nil => simp at h; exact h.1.symm
  | cons x l => simp at h

/-- A sole worker that has returned or is blocked on `stop` while Walk waits for it on `fin`. -/
theorem dead_fin (root : Dir) (stops : String → Nat) (s : St) (w : PC) (hw : s.workers = [w]) (hm : s.main = .finishing)
    (hwork : work stops s.sh w = none) (hi : w ≠ .idle) (hwt : s.waiter = .waiting) (hwg : s.sh.wg ≠ 0) : Deadlock root stops s := by
  refine ⟨by simp [hm], fun s' st => ?_⟩
  cases st with
  | work l r pc pc' sh' h hs => rw [hw] at h; rw [single h, hwork] at hs; cases hs
  | job l r h _ => rw [hw] at h; exact hi (single h).symm
  | first l r h _ => rw [hw] at h; exact hi (single h).symm
  | fin l r h _ => rw [hw] at h; exact hi (single h).symm
  | err _ _ _ _ h | stop _ _ _ _ _ h | wgFin _ h | start h | push h | spawn h => rw [hm] at h; cases h
  | wait _ h => exact hwg h

/-- **C45 is violated** with one worker and a root that cannot be read: the worker returns after sending the error, and Walk
blocks on `fin`. -/
theorem unreadable_deadlock_violated : ∃ s, Reachable (.mk "a" false .nil) (fun _ => 0) 1 s ∧ Deadlock (.mk "a" false .nil) (fun _ => 0) s := by
  have h1 := reach_runs 3 _ _ (reach_loop (.mk "a" false .nil) (fun _ => 0)) rfl { wg := 1 } (.stopErr (.mk "a" false .nil)) (by rfl)
  have h2 := Reachable.step h1 (Step.err _ [] [] _ rfl rfl)
  exact ⟨_, h2, dead_fin _ _ _ _ rfl rfl rfl (by simp) rfl (by simp)⟩

/-- **C45 is violated** by a handler that calls Stop twice, with one worker: the second call blocks, and so does Walk. -/
theorem stop_twice_deadlock_violated : ∃ s, Reachable (.mk "a" true .nil) (fun _ => 2) 1 s ∧ Deadlock (.mk "a" true .nil) (fun _ => 2) s := by
  have h1 := reach_runs 4 _ _ (reach_loop (.mk "a" true .nil) (fun _ => 2)) rfl { wg := 1, log := [("a", true)] } (.inHandler 2 .nil) (by rfl)
  have h2 := Reachable.step h1 (Step.stop _ [] [] _ _ rfl rfl)
  exact ⟨_, h2, dead_fin _ _ _ _ rfl rfl rfl (by simp) rfl (by simp)⟩

/-- **C45 is violated** by an empty path, which is taken for an empty queue: the job is dropped. -/
theorem blank_deadlock_violated : ∃ s, Reachable (.mk "" true .nil) (fun _ => 0) 1 s ∧ Deadlock (.mk "" true .nil) (fun _ => 0) s := by
  have h1 := reach_runs 2 _ _ (reach_loop (.mk "" true .nil) (fun _ => 0)) rfl { wg := 1, dropped := [.mk "" true .nil] } .idle (by rfl)
  refine ⟨_, h1, by simp, fun s' st => ?_⟩
  cases st with
  | work l r pc pc' sh' h hs => rw [single h] at hs; cases hs
  | job l r _ h => exact absurd h (Nat.lt_irrefl 0)
  | err l r d h => cases single h
  | stop l r n es h => cases single h
  | first _ _ _ h | fin _ _ _ h | start h | push h | spawn h | wgFin h => cases h
  | wait _ h => cases h

/-- **C45 is violated** by a negative number of workers: there are none, and Walk blocks on the first job. -/
theorem negative_deadlock_violated : ∃ s, Reachable sample (fun _ => 0) (-1) s ∧ Deadlock sample (fun _ => 0) s := by
  have h0 : Reachable sample (fun _ => 0) (-1) { workers := [] } := .init
  have h1 := Reachable.step h0 (Step.start _ rfl)
  have h2 := Reachable.step h1 (Step.push _ rfl)
  refine ⟨_, h2, by simp, fun s' st => ?_⟩
  cases st with
  | work _ _ _ _ _ h _ | job _ _ h _ | first _ _ h _ | fin _ _ h _ | err _ _ _ h _ | stop _ _ _ _ h _ => simp at h
  | start h | push h | spawn h | wait h | wgFin h => cases h

end Mole.Conc
