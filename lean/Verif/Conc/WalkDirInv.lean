import Verif.Conc.WalkDirSpec

/-! Invariants of the directory walk (helper lemmas for C44 and C45). -/

namespace Mole.Conc

open Mole.Conc.Spec

/-- The sum of a weight over the workers. -/
def total (f : PC → Nat) (l : List PC) : Nat := (l.map f).sum

@[simp] theorem total_split (f : PC → Nat) (l r : List PC) (pc : PC) : total f (l ++ pc :: r) = total f l + f pc + total f r := by
  simp [total]; omega

/-- Jobs a worker has been given or has pushed without a token yet. -/
def jobs : PC → Nat
  | .check | .take | .pushed _ => 1
  | _ => 0

/-- What a worker holds of the WaitGroup. -/
def holds : PC → Nat
  | .read _ | .stopErr _ | .failed _ | .handle .. | .inHandler .. | .loop _ | .pushed _ => 1
  | .added .. => 2
  | _ => 0

/-- How often an entry is still to be handled by a worker. -/
def toDo (e : String × Bool) : PC → Nat
  | .read d | .stopErr d | .failed d => (entries d).count e
  | .handle p b es => ((p, b) :: entriesE es).count e
  | .inHandler _ es | .loop es | .pushed es => (entriesE es).count e
  | .added d es => (entries d).count e + (entriesE es).count e
  | _ => 0

/-- The troubles a worker is in or will meet. -/
def trouble (stops : String → Nat) : PC → Nat
  | .read d => troubles stops d
  | .stopErr _ | .failed _ => 1
  | .handle p _ es => stops p + troublesE stops es
  | .inHandler n es => n + troublesE stops es
  | .loop es | .pushed es => troublesE stops es
  | .added d es => troubles stops d + troublesE stops es
  | _ => 0

/-- The invariants about numbers of jobs. -/
structure Inv (s : St) : Prop where
  jobs : s.sh.queue.length = s.sh.tokens + total jobs s.workers + (if s.main = .sending then 1 else 0)
  wg : s.sh.wg = s.sh.queue.length + total holds s.workers + (if s.main = .added then 1 else 0) + s.sh.dropped.length
  zero : s.waiter = .sending ∨ s.waiter = .done → s.sh.wg = 0
  absent : s.main = .start ∨ s.main = .added ∨ s.main = .sending ∨ s.main = .spawn → s.waiter = .absent
  waits : s.waiter = .absent → s.main = .start ∨ s.main = .added ∨ s.main = .sending ∨ s.main = .spawn
  safe : s.sh.panicked = false
  ended : s.main = .finishing ∨ s.main = .returned → s.stopped = true ∨ s.waiter = .done
  notDone : s.main = .loop → s.waiter ≠ .done
  begun : s.stopped = true → s.main = .finishing ∨ s.main = .returned
  failed : ∀ d, .failed d ∈ s.workers → s.stopped = true
  finished : .finished ∈ s.workers → s.main = .returned

theorem total_replicate (f : PC → Nat) (h : f .idle = 0) (n : Nat) : total f (List.replicate n .idle) = 0 := by
  simp [total, h]

theorem inv_init (c : Int) : Inv (newDirWalker c) := by
  have h1 := total_replicate jobs rfl (numWorkers c)
  have h2 := total_replicate holds rfl (numWorkers c)
  constructor <;> simp [newDirWalker, h1, h2, List.mem_replicate]

set_option maxHeartbeats 2000000 in
theorem inv_step {root : Dir} {stops : String → Nat} {s s' : St} (h : Inv s) (st : Step root stops s s') : Inv s' := by
  obtain ⟨h1, h2, h3, h4, h4', h5, h6, h6', h7, h8, h9⟩ := h
  cases st with
  | work l r pc pc' sh' hw hs =>
    rw [hw] at h1 h2 h8 h9
    cases pc with
    | check =>
      simp only [work] at hs
      split at hs <;> cases hs
      · simp only [total_split, jobs] at h1; omega
      · constructor <;> simp_all [jobs, holds] <;> grind
    | take =>
      simp only [work] at hs
      split at hs
      · rename_i hq
        simp only [total_split, jobs, hq, List.length_nil] at h1; omega
      · rename_i d q hq
        split at hs <;> cases hs
        · constructor <;> simp_all [jobs, holds] <;> grind
        · constructor <;> simp_all [jobs, holds] <;> grind
    | read d =>
      obtain ⟨p, ok, es⟩ := d
      simp only [work] at hs
      split at hs <;> cases hs
      · constructor <;> simp_all [jobs, holds] <;> grind
      · constructor <;> simp_all [jobs, holds] <;> grind
    | handle p b es =>
      simp only [work] at hs
      cases hs
      constructor <;> simp_all [jobs, holds] <;> grind
    | inHandler n es =>
      cases n with
      | zero =>
        simp only [work] at hs
        cases hs
        constructor <;> simp_all [jobs, holds] <;> grind
      | succ n => simp [work] at hs
    | loop es =>
      cases es with
      | nil =>
        simp only [work] at hs
        split at hs <;> cases hs
        · simp only [total_split, holds] at h2; omega
        · constructor <;> simp_all [jobs, holds] <;> grind
      | file p es =>
        simp only [work] at hs
        cases hs
        constructor <;> simp_all [jobs, holds] <;> grind
      | dir d es =>
        simp only [work] at hs
        cases hs
        constructor <;> simp_all [jobs, holds] <;> grind
    | added d es =>
      simp only [work] at hs
      cases hs
      constructor <;> simp_all [jobs, holds] <;> grind
    | pushed es =>
      simp only [work] at hs
      cases hs
      constructor <;> simp_all [jobs, holds] <;> grind
    | idle => simp [work] at hs
    | stopErr d => simp [work] at hs
    | failed d => simp [work] at hs
    | finished => simp [work] at hs
  | job l r hw ht => rw [hw] at h1 h2 h8 h9; constructor <;> simp_all [jobs, holds] <;> grind
  | first l r hw hm => rw [hw] at h1 h2 h8 h9; constructor <;> simp_all [jobs, holds] <;> grind
  | err l r d hw hm => rw [hw] at h1 h2 h8 h9; constructor <;> simp_all [jobs, holds]
  | stop l r n es hw hm => rw [hw] at h1 h2 h8 h9; constructor <;> simp_all [jobs, holds]
  | fin l r hw hm => rw [hw] at h1 h2 h8 h9; constructor <;> simp_all [jobs, holds] <;> assumption
  | start hm => constructor <;> simp_all <;> omega
  | push hm => constructor <;> simp_all <;> omega
  | spawn hm => constructor <;> simp_all
  | wait hw hg => exact ⟨h1, h2, fun _ => hg, fun h => (by simp [h4 h] at hw), fun h => (by cases h), h5, fun h => (h6 h).imp_right (fun h => (by simp [hw] at h)), fun _ => (by simp), h7, h8, h9⟩
  | wgFin hw hm => constructor <;> simp_all <;> grind

theorem inv {root : Dir} {stops : String → Nat} {c : Int} {s : St} (h : Reachable root stops c s) : Inv s := by
  induction h with
  | init => exact inv_init c
  | step _ st ih => exact inv_step ih st

/-- The sum of a weight over directories. -/
def totalD (f : Dir → Nat) (l : List Dir) : Nat := (l.map f).sum

@[simp] theorem totalD_nil (f : Dir → Nat) : totalD f [] = 0 := rfl
@[simp] theorem totalD_cons (f : Dir → Nat) (d : Dir) (l : List Dir) : totalD f (d :: l) = f d + totalD f l := by simp [totalD]
@[simp] theorem totalD_snoc (f : Dir → Nat) (d : Dir) (l : List Dir) : totalD f (l ++ [d]) = totalD f l + f d := by simp [totalD]

/-- Whether the root has not been pushed yet. -/
def Main.early : Main → Bool
  | .start | .added => true
  | _ => false

/-- The invariants about entries and troubles. -/
structure Inv2 (root : Dir) (stops : String → Nat) (n : Nat) (s : St) : Prop where
  count : ∀ e, s.sh.log.count e + totalD (fun d => (entries d).count e) s.sh.queue + total (toDo e) s.workers +
    (if s.main.early then (entries root).count e else 0) + totalD (fun d => (entries d).count e) s.sh.dropped = (entries root).count e
  trouble : totalD (troubles stops) s.sh.queue + total (trouble stops) s.workers +
    (if s.main.early then troubles stops root else 0) ≤ troubles stops root
  stopped : s.stopped = true → 0 < troubles stops root
  length : s.workers.length = n

theorem inv2_init (root : Dir) (stops : String → Nat) (c : Int) : Inv2 root stops (numWorkers c) (newDirWalker c) := by
  have h1 := fun e => total_replicate (toDo e) rfl (numWorkers c)
  have h2 := total_replicate (trouble stops) rfl (numWorkers c)
  constructor <;> simp [newDirWalker, h1, h2, Main.early]

theorem inv2_work {root : Dir} {stops : String → Nat} {n : Nat} {s : St} (h : Inv2 root stops n s) {l r : List PC} {pc pc' : PC}
    {sh' : Shared} (hw : s.workers = l ++ pc :: r) (hs : work stops s.sh pc = some (sh', pc')) :
    Inv2 root stops n { s with workers := l ++ pc' :: r, sh := sh' } := by
  obtain ⟨h1, h2, h3, h4⟩ := h
  rw [hw] at h1 h2 h4
  simp only [total_split] at h1 h2
  have mk : (∀ e, sh'.log.count e + totalD (fun d => (entries d).count e) sh'.queue + toDo e pc' + totalD (fun d => (entries d).count e) sh'.dropped =
        s.sh.log.count e + totalD (fun d => (entries d).count e) s.sh.queue + toDo e pc + totalD (fun d => (entries d).count e) s.sh.dropped) →
      totalD (troubles stops) sh'.queue + trouble stops pc' ≤ totalD (troubles stops) s.sh.queue + trouble stops pc →
      Inv2 root stops n { s with workers := l ++ pc' :: r, sh := sh' } := by
    intro e1 e2
    constructor
    · intro e
      have := h1 e
      have := e1 e
      simp only [total_split]
      omega
    · simp only [total_split]
      omega
    · exact h3
    · simpa using h4
  cases pc with
  | check =>
    simp only [work] at hs
    split at hs <;> cases hs <;> exact mk (fun e => by simp [toDo]) (by simp [trouble])
  | take =>
    simp only [work] at hs
    split at hs
    · cases hs
      exact mk (fun e => by simp [toDo]) (by simp [trouble])
    · rename_i d q hq
      split at hs <;> cases hs
      · exact mk (fun e => by simp [toDo, hq]; omega) (by simp [trouble, hq])
      · exact mk (fun e => by simp [toDo, hq]; omega) (by simp [trouble, hq]; omega)
  | read d =>
    obtain ⟨p, ok, es⟩ := d
    simp only [work] at hs
    split at hs <;> cases hs
    · rename_i hok
      exact mk (fun e => by simp [toDo, entries]) (by simp [trouble, troubles, hok])
    · rename_i hok
      exact mk (fun e => by simp [toDo]) (by simp [trouble, troubles, hok])
  | handle p b es =>
    simp only [work] at hs
    cases hs
    exact mk (fun e => by simp only [toDo, List.count_append, List.count_cons, List.count_nil]; omega) (by simp [trouble])
  | inHandler n es =>
    cases n with
    | zero =>
      simp only [work] at hs
      cases hs
      exact mk (fun e => by simp [toDo]) (by simp [trouble])
    | succ n => simp [work] at hs
  | loop es =>
    cases es with
    | nil =>
      simp only [work] at hs
      split at hs <;> cases hs <;> exact mk (fun e => by simp [toDo, entriesE]) (by simp [trouble])
    | file p es =>
      simp only [work] at hs
      cases hs
      exact mk (fun e => by simp [toDo, entriesE]) (by simp [trouble, troublesE])
    | dir d es =>
      simp only [work] at hs
      cases hs
      exact mk (fun e => by simp [toDo, entriesE]) (by simp [trouble, troublesE])
  | added d es =>
    simp only [work] at hs
    cases hs
    exact mk (fun e => by simp [toDo]; omega) (by simp [trouble]; omega)
  | pushed es =>
    simp only [work] at hs
    cases hs
    exact mk (fun e => by simp [toDo]) (by simp [trouble])
  | idle => simp [work] at hs
  | stopErr d => simp [work] at hs
  | failed d => simp [work] at hs
  | finished => simp [work] at hs

theorem inv2_step {root : Dir} {stops : String → Nat} {n : Nat} {s s' : St} (h : Inv2 root stops n s) (st : Step root stops s s') :
    Inv2 root stops n s' := by
  cases st with
  | work l r pc pc' sh' hw hs => exact inv2_work h hw hs
  | job l r hw ht =>
    obtain ⟨h1, h2, h3, h4⟩ := h
    rw [hw] at h1 h2 h4
    exact ⟨by simpa [toDo] using h1, by simpa [trouble] using h2, h3, by simpa using h4⟩
  | first l r hw hm =>
    obtain ⟨h1, h2, h3, h4⟩ := h
    rw [hw] at h1 h2 h4
    exact ⟨by simpa [toDo, hm, Main.early] using h1, by simpa [trouble, hm, Main.early] using h2, h3, by simpa using h4⟩
  | err l r d hw hm =>
    obtain ⟨h1, h2, h3, h4⟩ := h
    rw [hw] at h1 h2 h4
    exact ⟨by simpa [toDo, hm, Main.early] using h1, by simpa [trouble, hm, Main.early] using h2,
      fun _ => (by simp only [total_split, trouble] at h2; omega), by simpa using h4⟩
  | stop l r k es hw hm =>
    obtain ⟨h1, h2, h3, h4⟩ := h
    rw [hw] at h1 h2 h4
    exact ⟨by simpa [toDo, hm, Main.early] using h1,
      (by simp only [total_split, trouble, hm, Main.early] at h2 ⊢; simp only [Bool.false_eq_true, if_false] at h2 ⊢; omega),
      fun _ => (by simp only [total_split, trouble] at h2; omega), by simpa using h4⟩
  | fin l r hw hm =>
    obtain ⟨h1, h2, h3, h4⟩ := h
    rw [hw] at h1 h2 h4
    exact ⟨by simpa [toDo, hm, Main.early] using h1, by simpa [trouble, hm, Main.early] using h2, h3, by simpa using h4⟩
  | start hm =>
    obtain ⟨h1, h2, h3, h4⟩ := h
    exact ⟨by simpa [hm, Main.early] using h1, by simpa [hm, Main.early] using h2, h3, h4⟩
  | push hm =>
    obtain ⟨h1, h2, h3, h4⟩ := h
    simp only [hm, Main.early] at h1 h2
    exact ⟨fun e => (by have := h1 e; simp only [Main.early, totalD_snoc]; simp only [if_true, Bool.false_eq_true, if_false] at this ⊢; omega),
      (by simp only [Main.early, totalD_snoc]; simp only [if_true, Bool.false_eq_true, if_false] at h2 ⊢; omega), h3, h4⟩
  | spawn hm =>
    obtain ⟨h1, h2, h3, h4⟩ := h
    exact ⟨by simpa [hm, Main.early] using h1, by simpa [hm, Main.early] using h2, h3, h4⟩
  | wait hw hg => exact ⟨h.count, h.trouble, h.stopped, h.length⟩
  | wgFin hw hm =>
    obtain ⟨h1, h2, h3, h4⟩ := h
    exact ⟨by simpa [hm, Main.early] using h1, by simpa [hm, Main.early] using h2, h3, h4⟩

theorem inv2 {root : Dir} {stops : String → Nat} {c : Int} {s : St} (h : Reachable root stops c s) :
    Inv2 root stops (numWorkers c) s := by
  induction h with
  | init => exact inv2_init root stops c
  | step _ st ih => exact inv2_step ih st

/-- The directories a worker has in hand have non-empty paths. -/
def named : PC → Prop
  | .read d | .stopErr d | .failed d => Named d
  | .handle _ _ es | .inHandler _ es | .loop es | .pushed es => NamedE es
  | .added d es => Named d ∧ NamedE es
  | _ => True

/-- Nothing is dropped if all directories have non-empty paths. -/
structure Inv3 (s : St) : Prop where
  queue : ∀ d ∈ s.sh.queue, Named d
  workers : ∀ w ∈ s.workers, named w
  dropped : s.sh.dropped = []

theorem named_work {stops : String → Nat} {sh sh' : Shared} {pc pc' : PC} (hq : ∀ d ∈ sh.queue, Named d) (hp : named pc)
    (hd : sh.dropped = []) (hs : work stops sh pc = some (sh', pc')) :
    (∀ d ∈ sh'.queue, Named d) ∧ named pc' ∧ sh'.dropped = [] := by
  cases pc with
  | check =>
    simp only [work] at hs
    split at hs <;> cases hs <;> exact ⟨hq, trivial, hd⟩
  | take =>
    simp only [work] at hs
    split at hs
    · cases hs; exact ⟨hq, trivial, hd⟩
    · rename_i d q e
      have hdn : Named d := hq d (by rw [e]; exact List.mem_cons_self ..)
      have hq' : ∀ d ∈ q, Named d := fun x hx => hq x (by rw [e]; exact List.mem_cons_of_mem _ hx)
      split at hs <;> cases hs
      · rename_i hb
        obtain ⟨p, ok, es⟩ := d
        rw [Named] at hdn
        exact absurd hb hdn.1
      · exact ⟨hq', hdn, hd⟩
  | read d =>
    obtain ⟨p, ok, es⟩ := d
    simp only [work] at hs
    split at hs <;> cases hs
    · rw [named, Named] at hp; exact ⟨hq, hp.2, hd⟩
    · exact ⟨hq, hp, hd⟩
  | handle p b es => simp only [work] at hs; cases hs; exact ⟨hq, hp, hd⟩
  | inHandler n es =>
    cases n with
    | zero => simp only [work] at hs; cases hs; exact ⟨hq, hp, hd⟩
    | succ n => simp [work] at hs
  | loop es =>
    cases es with
    | nil => simp only [work] at hs; split at hs <;> cases hs <;> exact ⟨hq, trivial, hd⟩
    | file p es => simp only [work] at hs; cases hs; rw [named, NamedE] at hp; exact ⟨hq, hp, hd⟩
    | dir d es => simp only [work] at hs; cases hs; rw [named, NamedE] at hp; exact ⟨hq, hp, hd⟩
  | added d es =>
    simp only [work] at hs; cases hs
    refine ⟨fun x hx => ?_, hp.2, hd⟩
    rcases List.mem_append.mp hx with hx | hx
    · exact hq x hx
    · rw [List.mem_singleton.mp hx]; exact hp.1
  | pushed es => simp only [work] at hs; cases hs; exact ⟨hq, hp, hd⟩
  | idle => simp [work] at hs
  | stopErr d => simp [work] at hs
  | failed d => simp [work] at hs
  | finished => simp [work] at hs

theorem inv3 {root : Dir} {stops : String → Nat} {c : Int} {s : St} (hr : Named root) (h : Reachable root stops c s) : Inv3 s := by
  induction h with
  | init => exact ⟨by simp [newDirWalker], by simp [newDirWalker, List.mem_replicate, named], rfl⟩
  | step _ st ih =>
    obtain ⟨h1, h2, h3⟩ := ih
    cases st with
    | work l r pc pc' sh' hw hs =>
      rw [hw] at h2
      obtain ⟨a, b, d⟩ := named_work h1 (h2 pc (by simp)) h3 hs
      refine ⟨a, ?_, d⟩
      intro w hx
      simp only [List.mem_append, List.mem_cons] at hx h2
      rcases hx with hx | rfl | hx
      · exact h2 w (.inl hx)
      · exact b
      · exact h2 w (.inr (.inr hx))
    | push hm =>
      refine ⟨fun x hx => ?_, h2, h3⟩
      rcases List.mem_append.mp hx with hx | hx
      · exact h1 x hx
      · rw [List.mem_singleton.mp hx]; exact hr
    | start hm => exact ⟨h1, h2, h3⟩
    | spawn hm => exact ⟨h1, h2, h3⟩
    | wait hw hg => exact ⟨h1, h2, h3⟩
    | wgFin hw hm => exact ⟨h1, h2, h3⟩
    | job l r hw ht | first l r hw hm | err l r d hw hm | stop l r n es hw hm | fin l r hw hm =>
      rw [hw] at h2
      refine ⟨h1, ?_, h3⟩
      simp only [List.mem_append, List.mem_cons] at h2 ⊢
      intro w hx
      rcases hx with hx | rfl | hx
      · exact h2 w (.inl hx)
      · first | exact trivial | exact h2 (.stopErr d) (.inr (.inl rfl)) | exact h2 (.inHandler (n + 1) es) (.inr (.inl rfl))
      · exact h2 w (.inr (.inr hx))

/-! ### Termination -/

mutual
/-- A bound on the steps a directory takes. -/
def size (stops : String → Nat) : Dir → Nat
  | .mk p _ es => 10 + stops p + sizeE stops es
def sizeE (stops : String → Nat) : Ents → Nat
  | .nil => 1
  | .file p rest => 10 + stops p + sizeE stops rest
  | .dir d rest => 10 + size stops d + sizeE stops rest
end

/-- A bound on the steps of a worker. -/
def left (stops : String → Nat) : PC → Nat
  | .idle | .failed _ | .finished => 0
  | .check => 2
  | .take | .stopErr _ => 1
  | .read d => size stops d
  | .handle p _ es => 5 + stops p + sizeE stops es
  | .inHandler n es => 2 + n + sizeE stops es
  | .loop es => sizeE stops es
  | .added d es => 6 + size stops d + sizeE stops es
  | .pushed es => 5 + sizeE stops es

def leftM (stops : String → Nat) (root : Dir) : Main → Nat
  | .start => 30 + size stops root
  | .added => 29 + size stops root
  | .sending => 20
  | .spawn => 15
  | .loop => 10
  | .finishing => 5
  | .returned => 0

def leftW : Waiter → Nat
  | .waiting => 3
  | .sending => 2
  | _ => 0

/-- A bound on the steps still to come. -/
def measure (root : Dir) (stops : String → Nat) (s : St) : Nat :=
  leftM stops root s.main + leftW s.waiter + total (left stops) s.workers + totalD (size stops) s.sh.queue + 3 * s.sh.tokens

theorem work_measure {stops : String → Nat} {sh sh' : Shared} {pc pc' : PC} (hs : work stops sh pc = some (sh', pc')) :
    left stops pc' + totalD (size stops) sh'.queue + 3 * sh'.tokens < left stops pc + totalD (size stops) sh.queue + 3 * sh.tokens := by
  cases pc with
  | check => simp only [work] at hs; split at hs <;> cases hs <;> simp [left]
  | take =>
    simp only [work] at hs
    split at hs
    · cases hs; simp [left]
    · rename_i d q e
      split at hs <;> cases hs <;> simp [left, e] <;> omega
  | read d =>
    obtain ⟨p, ok, es⟩ := d
    simp only [work] at hs
    split at hs <;> cases hs <;> simp [left, size] <;> omega
  | handle p b es => simp only [work] at hs; cases hs; simp [left]
  | inHandler n es =>
    cases n with
    | zero => simp only [work] at hs; cases hs; simp [left]
    | succ n => simp [work] at hs
  | loop es =>
    cases es with
    | nil => simp only [work] at hs; split at hs <;> cases hs <;> simp [left, sizeE]
    | file p es => simp only [work] at hs; cases hs; simp [left, sizeE]
    | dir d es => simp only [work] at hs; cases hs; simp [left, sizeE]
  | added d es => simp only [work] at hs; cases hs; simp [left]; omega
  | pushed es => simp only [work] at hs; cases hs; simp [left]; omega
  | idle => simp [work] at hs
  | stopErr d => simp [work] at hs
  | failed d => simp [work] at hs
  | finished => simp [work] at hs

/-- Every step is progress. -/
theorem step_measure {root : Dir} {stops : String → Nat} {s s' : St} (habs : s.waiter = .absent ∨ s.main ≠ .spawn)
    (st : Step root stops s s') : measure root stops s' < measure root stops s := by
  cases st with
  | work l r pc pc' sh' hw hs =>
    have := work_measure hs
    simp only [measure, hw, total_split]; omega
  | job l r hw ht => simp only [measure, hw, total_split, left]; omega
  | first l r hw hm => simp only [measure, hw, total_split, left, hm, leftM]; omega
  | err l r d hw hm => simp only [measure, hw, total_split, left, hm, leftM]; omega
  | stop l r n es hw hm => simp only [measure, hw, total_split, left, hm, leftM]; omega
  | fin l r hw hm => simp only [measure, hw, total_split, left, hm, leftM]; omega
  | start hm => simp only [measure, hm, leftM]; omega
  | push hm => simp only [measure, hm, leftM, totalD_snoc]; omega
  | spawn hm =>
    have : s.waiter = .absent := habs.resolve_right (fun h => h hm)
    simp only [measure, hm, leftM, this, leftW]; omega
  | wait hw hg => simp only [measure, hw, leftW]; omega
  | wgFin hw hm => simp only [measure, hw, leftW, hm, leftM]; omega

end Mole.Conc
