/-!
# Model of `util/map.go` and `util/lru.go`

`container/list` elements have identities: an element removed from the list stays a value
that the dictionary may still point to.  A dictionary is a partial function.  A Go mutex
makes each locked section one atomic step.
-/
namespace Mole.Util

variable {K V : Type} [DecidableEq K]

/-- `*list.Element` holding a `*KvPair` (util/map.go:5-8): identity, key and value. -/
structure Elem (K V : Type) where
  id : Nat
  key : K
  val : V
  deriving DecidableEq, Repr

/-- util/map.go:10-13 `OrderedMap`; `next` is the allocator of element identities. -/
structure OMap (K V : Type) where
  dict : K → Option (Elem K V)
  list : List (Elem K V)
  next : Nat

/-- util/map.go:15-20 `NewOrderedMap`. -/
def OMap.new : OMap K V := ⟨fun _ => none, [], 0⟩

/-- `container/list` `(*List).Remove(e)`: unlinks `e` if it is in this list, else nothing. -/
def listRemove (l : List (Elem K V)) (e : Elem K V) : List (Elem K V) :=
  l.filter fun x => x.id != e.id

/-- `container/list` `(*List).MoveToBack(e)`: nothing if `e` is not in this list. -/
def listMoveToBack (l : List (Elem K V)) (e : Elem K V) : List (Elem K V) :=
  if l.any (fun x => x.id == e.id) then l.filter (fun x => x.id != e.id) ++ [e] else l

/-- util/map.go:22-25 `HasKey`. -/
def OMap.hasKey (o : OMap K V) (k : K) : Bool := (o.dict k).isSome

/-- util/map.go:27-34 `Get`; `none` stands for the zero value returned for a missing key. -/
def OMap.get (o : OMap K V) (k : K) : Option V := (o.dict k).map (·.val)

/-- util/map.go:36-49 `Set`: the new state and the element returned. -/
def OMap.set (o : OMap K V) (k : K) (v : V) : OMap K V × Elem K V :=
  let elem : Elem K V := ⟨o.next, k, v⟩
  let pushed := o.list ++ [elem]
  let dict' := fun k' => if k' = k then some elem else o.dict k'
  match o.dict k with
  | some old => (⟨dict', listRemove pushed old, o.next + 1⟩, elem)
  | none => (⟨dict', pushed, o.next + 1⟩, elem)

/-- util/map.go:51-56 `Remove`. -/
def OMap.remove (o : OMap K V) (k : K) : OMap K V :=
  match o.dict k with
  | some old => ⟨fun k' => if k' = k then none else o.dict k', listRemove o.list old, o.next⟩
  | none => o

/-- util/map.go:58-60 `Front`. -/
def OMap.front (o : OMap K V) : Option (Elem K V) := o.list.head?

/-- util/lru.go:5-11 `LruCache` without its lock. -/
structure Lru (K V : Type) where
  cap : Int
  clear : Int
  store : OMap K V

/-- util/lru.go:15-26 `NewLruCache` (`/` on Go ints truncates). -/
def Lru.new (cap clear : Int) : Lru K V :=
  ⟨cap, if clear = 0 ∨ clear > cap then cap.tdiv 3 else clear, OMap.new⟩

/-- util/lru.go:28-33 `HasKey`. -/
def Lru.hasKey (c : Lru K V) (k : K) : Bool := c.store.hasKey k

/-- util/lru.go:35-40 `Get`. -/
def Lru.get (c : Lru K V) (k : K) : Option V := c.store.get k

/-- util/lru.go:57-62: `n` times remove the front element of the list, if any. -/
def dropFront (l : List (Elem K V)) : Nat → List (Elem K V)
  | 0 => l
  | n + 1 =>
    match l with
    | [] => dropFront [] n
    | e :: l' => dropFront (listRemove (e :: l') e) n

/-- util/lru.go:42-65 `Set`, the section executed under the write lock.  `seen` is the answer
of the preceding `HasKey` call (line 43), which runs under its own read lock and may be
outdated when the write lock is taken. -/
def Lru.setSection (c : Lru K V) (seen : Bool) (k : K) (v : V) : Lru K V :=
  if seen then
    let (o, elem) := c.store.set k v
    { c with store := { o with list := listMoveToBack o.list elem } }
  else
    let l := if (c.store.list.length : Int) + 1 > c.cap then dropFront c.store.list c.clear.toNat
      else c.store.list
    { c with store := ({ c.store with list := l }.set k v).1 }

/-- `Set` without interference: the check and the section see the same state. -/
def Lru.set (c : Lru K V) (k : K) (v : V) : Lru K V := c.setSection (c.hasKey k) k v

/-- A history of undisturbed `Set` calls. -/
def Lru.sets (c : Lru K V) : List (K × V) → Lru K V
  | [] => c
  | (k, v) :: h => (c.set k v).sets h

/-- A history of write sections of concurrent `Set` calls, each with the (possibly outdated)
answer its check got. -/
def Lru.sections (c : Lru K V) : List (Bool × K × V) → Lru K V
  | [] => c
  | (b, k, v) :: h => (c.setSection b k v).sections h

/-- Calls on an ordered map. -/
inductive MapOp (K V : Type) where
  | set (k : K) (v : V)
  | remove (k : K)
  deriving DecidableEq, Repr

/-- A history of calls on an ordered map. -/
def OMap.run (o : OMap K V) : List (MapOp K V) → OMap K V
  | [] => o
  | .set k v :: h => (o.set k v).1.run h
  | .remove k :: h => (o.remove k).run h

end Mole.Util
