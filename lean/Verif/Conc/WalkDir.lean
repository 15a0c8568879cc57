/-! Model of util/walkdir.go, the concurrent directory walk (C44, C45): a state machine of the goroutine that calls Walk, the
workers, the goroutines that send on `newJob`, and the one that waits for the WaitGroup.  Every step is one channel
communication, one mutex section or one WaitGroup operation.

Simplified: memory is sequentially consistent, although `w.dirs.Len()` on line 59 is read without the lock; error values
are left out; Walk is called once. -/

namespace Mole.Conc

mutual
/-- A directory: its path, whether `os.ReadDir` succeeds on it (walkdir.go 88), and its entries, in the order ReadDir
returns them. -/
inductive Dir where
  | mk (path : String) (readable : Bool) (es : Ents)
/-- Directory entries (walkdir.go 97-106): files (all that `IsDir` is false of) by path, and subdirectories. -/
inductive Ents where
  | nil
  | file (path : String) (rest : Ents)
  | dir (d : Dir) (rest : Ents)
end

/-- The path of a directory. -/
def Dir.path : Dir → String
  | .mk p _ _ => p

/-- Where a worker is (walkdir.go 77-113). -/
inductive PC where
  /-- line 80: in `select`, waiting for `newJob` or `fin` -/
  | idle
  /-- line 59: about to look at the length of the queue -/
  | check
  /-- lines 62-67: about to lock the queue and take its head -/
  | take
  /-- line 87: about to read the directory -/
  | read (d : Dir)
  /-- line 89: sending the error of reading the directory on `stop` -/
  | stopErr (d : Dir)
  /-- line 90: returned after an error -/
  | failed (d : Dir)
  /-- lines 95 and 104: about to call the handler, with the entries left after it -/
  | handle (path : String) (isDir : Bool) (es : Ents)
  /-- in the handler, which has `n` calls of Stop left to make; blocked in the first of them (line 124) if there is one -/
  | inHandler (n : Nat) (es : Ents)
  /-- line 97: at the head of the loop over the entries -/
  | loop (es : Ents)
  /-- line 100: after `wg.Add(1)` for a subdirectory -/
  | added (d : Dir) (es : Ents)
  /-- line 101: after `push` -/
  | pushed (es : Ents)
  /-- line 110: returned after `fin` -/
  | finished

/-- Where the goroutine calling Walk is (walkdir.go 131-153). -/
inductive Main where
  /-- line 132 -/
  | start
  /-- line 133 -/
  | added
  /-- line 134: sending on `newJob` -/
  | sending
  /-- line 136 -/
  | spawn
  /-- lines 142-150 -/
  | loop
  /-- line 152: sending on `fin` -/
  | finishing
  | returned
deriving DecidableEq

/-- Where the goroutine of walkdir.go 136-139 is. -/
inductive Waiter where
  | absent
  | waiting
  | sending
  | done
deriving DecidableEq

/-- What the goroutines share. -/
structure Shared where
  /-- walkdir.go 20: the queue -/
  queue : List Dir := []
  /-- the goroutines of line 102 that still block on `newJob` -/
  tokens : Nat := 0
  /-- line 25: the counter of the WaitGroup -/
  wg : Nat := 0
  /-- the handler's calls, in order -/
  log : List (String × Bool) := []
  /-- a goroutine has panicked: Remove of a nil element (line 66) or a negative WaitGroup counter (line 107) -/
  panicked : Bool := false
  /-- not in the code: the jobs dropped by `continue` on line 84 -/
  dropped : List Dir := []

/-- The state of the walk. -/
structure St where
  main : Main := .start
  waiter : Waiter := .absent
  /-- line 145: an error has been received -/
  stopped : Bool := false
  workers : List PC
  sh : Shared := {}

/-- walkdir.go 33-36, 115-121: the number of workers for the argument `concurrent`. -/
def numWorkers (concurrent : Int) : Nat := if concurrent = 0 then 16 else concurrent.toNat

/-- walkdir.go 33-56 (NewDirWalker). -/
def newDirWalker (concurrent : Int) : St := { workers := List.replicate (numWorkers concurrent) .idle }

/-- One step of a worker that is not a communication (walkdir.go 77-113); `stops` says how often the handler calls Stop for
a path.  `none` if the worker waits for a communication or has returned. -/
def work (stops : String → Nat) (sh : Shared) : PC → Option (Shared × PC)
  | .check => if sh.queue.length = 0 then some (sh, .idle) else some (sh, .take)
  | .take =>
    match sh.queue with
    | [] => some ({ sh with panicked := true }, .finished)
    | d :: q =>
      if d.path = "" then some ({ sh with queue := q, dropped := d :: sh.dropped }, .idle) else some ({ sh with queue := q }, .read d)
  | .read (.mk p ok es) => if ok then some (sh, .handle p true es) else some (sh, .stopErr (.mk p ok es))
  | .handle p isDir es => some ({ sh with log := sh.log ++ [(p, isDir)] }, .inHandler (stops p) es)
  | .inHandler 0 es => some (sh, .loop es)
  | .loop .nil => if sh.wg = 0 then some ({ sh with panicked := true }, .finished) else some ({ sh with wg := sh.wg - 1 }, .idle)
  | .loop (.file p es) => some (sh, .handle p false es)
  | .loop (.dir d es) => some ({ sh with wg := sh.wg + 1 }, .added d es)
  | .added d es => some ({ sh with queue := sh.queue ++ [d] }, .pushed es)
  | .pushed es => some ({ sh with tokens := sh.tokens + 1 }, .loop es)
  | .idle => none
  | .stopErr _ => none
  | .failed _ => none
  | .inHandler (_ + 1) _ => none
  | .finished => none

/-- The steps of the walk of `root`. -/
inductive Step (root : Dir) (stops : String → Nat) : St → St → Prop
  /-- a worker goes on by itself -/
  | work (s : St) (l r : List PC) (pc pc' : PC) (sh' : Shared) : s.workers = l ++ pc :: r → work stops s.sh pc = some (sh', pc') →
      Step root stops s { s with workers := l ++ pc' :: r, sh := sh' }
  /-- lines 81 and 102: a worker receives a job from a goroutine -/
  | job (s : St) (l r : List PC) : s.workers = l ++ .idle :: r → 0 < s.sh.tokens →
      Step root stops s { s with workers := l ++ .check :: r, sh := { s.sh with tokens := s.sh.tokens - 1 } }
  /-- lines 81 and 134: a worker receives the first job -/
  | first (s : St) (l r : List PC) : s.workers = l ++ .idle :: r → s.main = .sending →
      Step root stops s { s with workers := l ++ .check :: r, main := .spawn }
  /-- lines 89 and 144: an error is received -/
  | err (s : St) (l r : List PC) (d : Dir) : s.workers = l ++ .stopErr d :: r → s.main = .loop →
      Step root stops s { s with workers := l ++ .failed d :: r, main := .finishing, stopped := true }
  /-- lines 124 and 144: a Stop is received -/
  | stop (s : St) (l r : List PC) (n : Nat) (es : Ents) : s.workers = l ++ .inHandler (n + 1) es :: r → s.main = .loop →
      Step root stops s { s with workers := l ++ .inHandler n es :: r, main := .finishing, stopped := true }
  /-- lines 109 and 152: a worker is told that the walk is over -/
  | fin (s : St) (l r : List PC) : s.workers = l ++ .idle :: r → s.main = .finishing →
      Step root stops s { s with workers := l ++ .finished :: r, main := .returned }
  /-- line 132 -/
  | start (s : St) : s.main = .start → Step root stops s { s with main := .added, sh := { s.sh with wg := s.sh.wg + 1 } }
  /-- line 133 -/
  | push (s : St) : s.main = .added → Step root stops s { s with main := .sending, sh := { s.sh with queue := s.sh.queue ++ [root] } }
  /-- line 136 -/
  | spawn (s : St) : s.main = .spawn → Step root stops s { s with main := .loop, waiter := .waiting }
  /-- line 137 -/
  | wait (s : St) : s.waiter = .waiting → s.sh.wg = 0 → Step root stops s { s with waiter := .sending }
  /-- lines 138 and 142 -/
  | wgFin (s : St) : s.waiter = .sending → s.main = .loop → Step root stops s { s with waiter := .done, main := .finishing }

/-- The states a walk of `root` may be in, under any schedule. -/
inductive Reachable (root : Dir) (stops : String → Nat) (concurrent : Int) : St → Prop
  | init : Reachable root stops concurrent (newDirWalker concurrent)
  | step {s s' : St} : Reachable root stops concurrent s → Step root stops s s' → Reachable root stops concurrent s'

end Mole.Conc
