/-!
# Model of `util/merge.go`, `util/obj.go`, `util/sets.go` and `util/slice.go`

A Go `map[string]interface{}` is the list of its entries in the order the runtime happens to
iterate over them: theorems quantify over all lists, hence over all iteration orders.  Keys are
character lists.
-/
namespace Mole.Util

abbrev Key := List Char

mutual
/-- An `interface{}` holding what `encoding/json` produces; `atom n` stands for any string,
number or boolean. -/
inductive Val where
  | nil
  | atom (n : Nat)
  | arr (a : Arr)
  | obj (o : Obj)
/-- `[]interface{}` -/
inductive Arr where
  | nil
  | cons (v : Val) (rest : Arr)
/-- `map[string]interface{}` -/
inductive Obj where
  | nil
  | cons (k : Key) (v : Val) (rest : Obj)
end

mutual
def decVal : (a b : Val) → Decidable (a = b)
  | .nil, .nil => isTrue rfl
  | .atom m, .atom n => if h : m = n then isTrue (by rw [h]) else isFalse (by simp [h])
  | .arr a, .arr b => match decArr a b with
    | isTrue h => isTrue (by rw [h])
    | isFalse h => isFalse (by simp [h])
  | .obj a, .obj b => match decObj a b with
    | isTrue h => isTrue (by rw [h])
    | isFalse h => isFalse (by simp [h])
  | .nil, .atom _ | .nil, .arr _ | .nil, .obj _ | .atom _, .nil | .atom _, .arr _
  | .atom _, .obj _ | .arr _, .nil | .arr _, .atom _ | .arr _, .obj _ | .obj _, .nil
  | .obj _, .atom _ | .obj _, .arr _ => isFalse (by simp)
def decArr : (a b : Arr) → Decidable (a = b)
  | .nil, .nil => isTrue rfl
  | .cons v r, .cons v' r' => match decVal v v', decArr r r' with
    | isTrue h, isTrue h' => isTrue (by rw [h, h'])
    | isFalse h, _ => isFalse (by simp [h])
    | _, isFalse h => isFalse (by simp [h])
  | .nil, .cons _ _ | .cons _ _, .nil => isFalse (by simp)
def decObj : (a b : Obj) → Decidable (a = b)
  | .nil, .nil => isTrue rfl
  | .cons k v r, .cons k' v' r' =>
    if hk : k = k' then
      match decVal v v', decObj r r' with
      | isTrue h, isTrue h' => isTrue (by rw [hk, h, h'])
      | isFalse h, _ => isFalse (by simp [h])
      | _, isFalse h => isFalse (by simp [h])
    else isFalse (by simp [hk])
  | .nil, .cons _ _ _ | .cons _ _ _, .nil => isFalse (by simp)
end
instance : DecidableEq Val := decVal
instance : DecidableEq Arr := decArr
instance : DecidableEq Obj := decObj

/-- Map lookup `obj[k]` with presence. -/
def Obj.lookup (k : Key) : Obj → Option Val
  | .nil => none
  | .cons k' v r => if k' = k then some v else r.lookup k

/-- Map assignment `obj[k] = v`. -/
def Obj.assign (k : Key) (v : Val) : Obj → Obj
  | .nil => .cons k v .nil
  | .cons k' v' r => if k' = k then .cons k v r else .cons k' v' (r.assign k v)

/-- The keys in iteration order. -/
def Obj.keys : Obj → List Key
  | .nil => []
  | .cons k _ r => k :: r.keys

mutual
/-- util/merge.go:5-15: the body of the loop of `MergeMap` for one entry of `src`. -/
def mergeEntry (dst : Obj) (k : Key) : Val → Obj
  | .nil => dst
  | .obj svm =>
    match dst.lookup k with
    | some (.obj dvm) => dst.assign k (.obj (mergeMap dvm svm))
    | _ => dst.assign k (.obj svm)
  | .atom n => dst.assign k (.atom n)
  | .arr a => dst.assign k (.arr a)
/-- util/merge.go:3-17 `MergeMap`: the contents of `dst` afterwards.  Maps are values here;
sharing of nested maps between `dst` and `src` is the subject of `Heap` below. -/
def mergeMap (dst : Obj) : Obj → Obj
  | .nil => dst
  | .cons k v rest => mergeMap (mergeEntry dst k v) rest
end

/-- util/merge.go:19-23 `MergeMaps`. -/
def mergeMaps (dst : Obj) (srcs : List Obj) : Obj := srcs.foldl mergeMap dst

/-! ### `MergeMap` with map identities -/

/-- Values with nested maps by reference; slices are never written to by `MergeMap`. -/
inductive HVal where
  | nil
  | atom (n : Nat)
  | arr (a : Arr)
  | ref (addr : Nat)
  deriving DecidableEq

/-- The entries of one map. -/
abbrev Entries := List (Key × HVal)

/-- All maps of the program, by identity. -/
abbrev Heap := List Entries

def Heap.map (h : Heap) (a : Nat) : Entries := h.getD a []

/-- Map lookup with presence. -/
def Entries.find (k : Key) : Entries → Option HVal
  | [] => none
  | (k', v) :: r => if k' = k then some v else Entries.find k r

/-- Map assignment. -/
def Entries.assign (k : Key) (v : HVal) : Entries → Entries
  | [] => [(k, v)]
  | (k', v') :: r => if k' = k then (k, v) :: r else (k', v') :: Entries.assign k v r

/-- util/merge.go:3-17 on the heap; `fuel` bounds the nesting depth. -/
def hmerge : Nat → Heap → (dst src : Nat) → Heap
  | 0, h, _, _ => h
  | fuel + 1, h, dst, src =>
    (h.map src).foldl (fun h (kv : Key × HVal) =>
      match (h.map dst).find kv.1, kv.2 with
      | some (.ref d), .ref s => hmerge fuel h d s
      | _, .nil => h
      | _, v => h.set dst ((h.map dst).assign kv.1 v)) h

/-! ### `WalkObj`, `GetByPath`, `FlattenMap` -/

/-- `strconv.Itoa` on an index, as a list of digits. -/
def itoa (n : Nat) : Key := Nat.toDigits 10 n

mutual
/-- util/obj.go:11-45 `WalkObj` with a callback that always goes on (as in `FlattenMap`): the
`(path, value)` pairs the callback is called with, in order.  The path slice is copied here;
`FlattenMap` joins it before the next append. -/
def walkVal (path : List Key) : Val → List (List Key × Val)
  | .obj o => walkEntries path o
  | .arr a => walkElems path 0 a
  | v => [(path, v)]
/-- util/obj.go:13-25: the loop over a map. -/
def walkEntries (path : List Key) : Obj → List (List Key × Val)
  | .nil => []
  | .cons k v r => (path ++ [k], v) :: (walkVal (path ++ [k]) v ++ walkEntries path r)
/-- util/obj.go:29-41: the loop over a slice. -/
def walkElems (path : List Key) (i : Nat) : Arr → List (List Key × Val)
  | .nil => []
  | .cons v r => (path ++ [itoa i], v) :: (walkVal (path ++ [itoa i]) v ++ walkElems path (i + 1) r)
end

/-- `strings.Join(path, ".")`. -/
def join : List Key → Key
  | [] => []
  | [k] => k
  | k :: ks => k ++ '.' :: join ks

/-- util/obj.go:71-73: neither a map nor a slice. -/
def Val.isLeaf : Val → Bool
  | .obj _ | .arr _ => false
  | _ => true

/-- util/obj.go:68-80 `FlattenMap`: the entries of the result, later writes override earlier
ones. -/
def flattenMap (m : Obj) : Key → Option Val :=
  ((walkVal [] (.obj m)).filter (fun p => p.2.isLeaf)).foldl
    (fun ret p => fun k => if k = join p.1 then some p.2 else ret k) (fun _ => none)

/-- util/obj.go:47-66 `GetByPath`; `Val.nil` is Go's nil. -/
def getByPath (obj : Obj) : List Key → Val
  | [] => .obj obj
  | k :: path =>
    match obj.lookup k with
    | none | some .nil => .nil
    | some v =>
      match path with
      | [] => v
      | k' :: path' =>
        match v with
        | .obj vo => getByPath vo (k' :: path')
        | _ => .nil

/-! ### Slices and generic maps -/

/-- util/slice.go:4-6 `Swap`; `none` is the index panic. -/
def swap {α : Type} (arr : List α) (i j : Nat) : Option (List α) :=
  match arr[i]?, arr[j]? with
  | some a, some b => some ((arr.set i b).set j a)
  | _, _ => none

/-- util/slice.go:10-13 `RemoveAt` (Go's `len-1` of an empty slice is −1, also a panic). -/
def removeAt {α : Type} (arr : List α) (i : Nat) : Option (List α) :=
  if arr.length = 0 then none
  else (swap arr i (arr.length - 1)).map (·.take (arr.length - 1))

/-- util/slice.go:15-22 `Includes`. -/
def includes {α : Type} [DecidableEq α] : List α → α → Bool
  | [], _ => false
  | vv :: r, v => if vv = v then true else includes r v

/-- One element of Go's `copy`. -/
def copyStep {α : Type} (arr : List α) (ret : List α) (i : Nat) : List α :=
  match arr[i]? with
  | some v => ret.set i v
  | none => ret

/-- util/slice.go:24-28 `Copy`: `copy` into a fresh slice of zero values `z`, element by
element. -/
def copySlice {α : Type} (z : α) (arr : List α) : List α :=
  (List.range arr.length).foldl (copyStep arr) (List.replicate arr.length z)

/-- A Go map with entries in iteration order. -/
abbrev GMap (K V : Type) := List (K × V)

def GMap.lookup {K V : Type} [DecidableEq K] (m : GMap K V) (k : K) : Option V :=
  (m.find? (fun p => p.1 == k)).map (·.2)

/-- Map assignment of a key. -/
def GMap.put {K V : Type} [DecidableEq K] (m : GMap K V) (k : K) (v : V) : GMap K V :=
  if m.any (fun p => p.1 == k) then m.map (fun p => if p.1 = k then (k, v) else p) else m ++ [(k, v)]

/-- util/sets.go:3-9 `Merge`. -/
def mergeSets {K V : Type} [DecidableEq K] (src : GMap K V) (stuff : GMap K V) : GMap K V :=
  stuff.foldl (fun src p => if (src.lookup p.1).isNone then src.put p.1 p.2 else src) src

/-- util/sets.go:34-40 `CloneMap`. -/
def cloneMap {K V : Type} [DecidableEq K] (m : GMap K V) : GMap K V :=
  m.foldl (fun nm p => nm.put p.1 p.2) []

/-- util/sets.go:11-16, 18-23 `PickOne`, `PickOnePair`: the first pair iterated, if any. -/
def pickOnePair {K V : Type} (m : GMap K V) : Option (K × V) := m.head?

/-- util/sets.go:25-32 `TakeOne`. -/
def takeOne {K V : Type} [DecidableEq K] : GMap K V → Option V × GMap K V
  | [] => (none, [])
  | (k, v) :: r => (some v, ((k, v) :: r).filter (fun p => p.1 != k))

end Mole.Util
