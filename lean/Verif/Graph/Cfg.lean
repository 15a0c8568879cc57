/-! # The control flow graph (C51, C64): model of ecma/analysis/graph.go

Blocks, edges and the maps `Inlets` and `Outlets` live in a heap and are named by numbers, so that two blocks may share one
map, as they do in the code.  A map is the list of its keys (graph.go uses each edge as its own key).  Go iterates over maps
in an arbitrary order: an `Order` chooses one for every `range` statement executed, and every theorem is about all of them.
A step that would dereference nil, or reach `panic("unreachable")`, gives `none`. -/

namespace Mole.Cfg

/-- graph.go 13-19 (EdgeKind). -/
inductive EK
  | none
  | seq
  | jmp
deriving DecidableEq, Repr

/-- graph.go 21-41 (EdgeTag): the bits of a tag. -/
structure Tag where
  t : Bool := false
  f : Bool := false
  e : Bool := false
  u : Bool := false
  p : Bool := false
  n : Bool := false
  loop : Bool := false
  cut : Bool := false
deriving DecidableEq, Repr

/-- `a == ET_NONE`. -/
def Tag.isNone (a : Tag) : Bool := !(a.t || a.f || a.e || a.u || a.p || a.n || a.loop || a.cut)

/-- `a & b != 0`. -/
def Tag.meets (a b : Tag) : Bool :=
  a.t && b.t || a.f && b.f || a.e && b.e || a.u && b.u || a.p && b.p || a.n && b.n || a.loop && b.loop || a.cut && b.cut

/-- `a | ET_CUT`. -/
def Tag.withCut (a : Tag) : Tag := { a with cut := true }

/-- `a | ET_LOOP`. -/
def Tag.withLoop (a : Tag) : Tag := { a with loop := true }

/-- graph.go 79-84 (Edge). -/
structure Edge where
  kind : EK
  tag : Tag
  src : Option Nat
  dst : Option Nat
deriving DecidableEq, Repr

/-- graph.go 113-120 (BlockKind). -/
inductive BK
  | none
  | basic
  | group
  | start
deriving DecidableEq, Repr

/-- What a block's `Nodes` holds (graph.go 122-130, 805-813): a node of the tree, or the mark for entering or leaving one. -/
inductive Node
  | atom (id : Nat)
  | enter (id : Nat)
  | exit (id : Nat)
deriving DecidableEq, Repr

/-- graph.go 122-130 (Block); `ins` and `outs` name maps. -/
structure Block where
  kind : BK
  nodes : List Node
  ins : Nat
  outs : Nat
deriving DecidableEq, Repr

/-- All the blocks, edges and maps there are.  Identities below `next` are in use.  `tick` counts the changes made. -/
structure Heap where
  blk : Nat → Block
  edge : Nat → Edge
  emap : Nat → List Nat
  next : Nat
  tick : Nat

/-- The order in which a `range` visits a map: it may depend on when and where the `range` is executed. -/
abbrev Order := Nat → Nat → List Nat → List Nat

/-- An order visits every key once. -/
def Order.Fair (ω : Order) : Prop := ∀ tick site l, (ω tick site l).Perm l

/-- Changing one value of a function. -/
def upd {α : Type} (f : Nat → α) (i : Nat) (v : α) : Nat → α := fun j => if j = i then v else f j

namespace Heap

/-- Nothing allocated yet. -/
def empty : Heap :=
  { blk := fun _ => ⟨.none, [], 0, 0⟩, edge := fun _ => ⟨.none, {}, none, none⟩, emap := fun _ => [], next := 0, tick := 0 }

/-- An assignment to fields of an edge. -/
def setEdge (h : Heap) (d : Nat) (v : Edge) : Heap := { h with edge := upd h.edge d v, tick := h.tick + 1 }

/-- An assignment to fields of a block. -/
def setBlk (h : Heap) (b : Nat) (v : Block) : Heap := { h with blk := upd h.blk b v, tick := h.tick + 1 }

/-- An assignment to a map. -/
def setMap (h : Heap) (m : Nat) (v : List Nat) : Heap := { h with emap := upd h.emap m v, tick := h.tick + 1 }

/-- `m[d] = d` for a key. -/
def addKey (l : List Nat) (d : Nat) : List Nat := if d ∈ l then l else l ++ [d]

/-- The edges a `range` over map `m` visits, in order. -/
def range (ω : Order) (h : Heap) (site m : Nat) : List Nat := ω h.tick site (h.emap m)

/-- A `range` that stops at the first edge with a property. -/
def pick (ω : Order) (h : Heap) (site m : Nat) (p : Edge → Bool) : Option Nat :=
  (h.range ω site m).find? fun d => p (h.edge d)

/-- graph.go 692-726 (newBasicBlk, newStartBlk), with `nodes` added to the block (ctrlflow.go 71-81, 157-163). -/
def newBlk (h : Heap) (k : BK) (nodes : List Node) : Heap × Nat :=
  let b := h.next
  ({ blk := upd h.blk b ⟨k, nodes, b, b + 1⟩,
     edge := upd (upd h.edge b ⟨.seq, {}, none, some b⟩) (b + 1) ⟨.seq, {}, some b, none⟩,
     emap := upd (upd h.emap b [b]) (b + 1) [b + 1],
     next := b + 2, tick := h.tick + 1 }, b)

/-- graph.go 728-738 (newGroupBlk) followed by the assignment of `Inlets` that every caller makes. -/
def newGroup (h : Heap) (ins : Nat) : Heap × Nat :=
  let b := h.next
  ({ h with blk := upd h.blk b ⟨.group, [], ins, b⟩, emap := upd h.emap b [], next := b + 1, tick := h.tick + 1 }, b)

/-- A new edge, put into map `m` (graph.go 271-275, 429-431). -/
def newEdge (h : Heap) (m : Nat) (e : Edge) : Heap × Nat :=
  let d := h.next
  ({ h with edge := upd h.edge d e, emap := upd h.emap m (h.emap m ++ [d]), next := d + 1, tick := h.tick + 1 }, d)

/-- graph.go 176-183 (OutSeqEdge) and 408-415 (seqOutEdge). -/
def outSeq (ω : Order) (h : Heap) (site b : Nat) : Option Nat := h.pick ω site (h.blk b).outs fun e => e.kind = .seq

/-- graph.go 417-424 (seqInEdge). -/
def inSeq (ω : Order) (h : Heap) (site b : Nat) : Option Nat := h.pick ω site (h.blk b).ins fun e => e.kind = .seq

/-- graph.go 351-360 (unwrapSeqIn). -/
def unwrapIn (ω : Order) (h : Heap) (site b : Nat) : Option Nat := (h.inSeq ω site b).bind fun d => (h.edge d).dst

/-- graph.go 362-371 (unwrapSeqOut). -/
def unwrapOut (ω : Order) (h : Heap) (site b : Nat) : Option Nat := (h.outSeq ω site b).bind fun d => (h.edge d).src

/-- graph.go 220-229 (FindEdge). -/
def findEdge (ω : Order) (h : Heap) (site m : Nat) (k : EK) (t : Tag) : Option Nat :=
  h.pick ω site m fun e => e.kind = k && (e.tag.isNone || t.isNone || e.tag.meets t)

/-- graph.go 292-294 (onlySeqIn): `util.PickOne` of a map with one key is that key. -/
def onlySeqIn (h : Heap) (b : Nat) : Bool :=
  match h.emap (h.blk b).ins with
  | [d] => (h.edge d).kind = .seq
  | _ => false

/-- graph.go 296-302 (onlySeqOut). -/
def onlySeqOut (h : Heap) (b : Nat) : Option Bool :=
  match h.emap (h.blk b).outs with
  | [d] =>
    (h.edge d).src.map fun s =>
      match h.emap (h.blk s).outs with
      | [c] => decide ((h.edge c).kind = .seq)
      | _ => false
  | _ => some false

/-- graph.go 512-519 (IsInCut). -/
def isInCut (h : Heap) (b : Nat) : Bool := (h.emap (h.blk b).ins).all fun d => (h.edge d).tag.cut

/-- graph.go 521-543 (IsInCutPair).  The order of the two `range`s does not matter. -/
def isInCutPair (h : Heap) (b : Nat) : Bool × Bool :=
  let ins := (h.emap (h.blk b).ins).filter fun d => !(h.edge d).tag.cut
  if ins.all fun d => (h.edge d).tag.p then
    if ins = [] then (true, false)
    else (ins.length == ((h.emap (h.blk b).outs).filter fun d => (h.edge d).tag.p).length, true)
  else (false, false)

/-- graph.go 568-571 (IsOutCut), with OutEdge (graph.go 194-201). -/
def isOutCut (ω : Order) (h : Heap) (site b to : Nat) : Bool :=
  match h.pick ω site (h.blk b).outs fun e => e.tag.cut with
  | some d => (h.edge d).dst = some to
  | none => false

/-- graph.go 388-396 (xOutEdges). -/
def xOut (h : Heap) (b : Nat) : List Nat := (h.emap (h.blk b).outs).filter fun d => (h.edge d).dst = none

/-- graph.go 398-406 (xJmpOutEdges). -/
def xJmp (h : Heap) (b : Nat) : List Nat :=
  (h.emap (h.blk b).outs).filter fun d => decide ((h.edge d).kind ≠ .seq) && decide ((h.edge d).dst = none)

/-- graph.go 171-174 (addOutlets) and util/sets.go 3-9 (Merge). -/
def addOutlets (h : Heap) (b : Nat) (ds : List Nat) : Heap :=
  h.setMap (h.blk b).outs (ds.foldl addKey (h.emap (h.blk b).outs))

/-- graph.go 380-385: the edges taken over get a new source. -/
def retarget (h : Heap) (src : Nat) (isCut : Bool) : List Nat → Heap
  | [] => h
  | d :: ds =>
    let e := h.edge d
    retarget (h.setEdge d { e with src := some src, tag := if isCut && decide (e.dst = none) then e.tag.withCut else e.tag })
      src isCut ds

/-- graph.go 373-386 (join). -/
def join (ω : Order) (h : Heap) (b blk : Nat) : Option Heap :=
  (h.unwrapIn ω 1 blk).bind fun to =>
  (h.unwrapOut ω 2 b).map fun frm =>
    let h := h.setBlk frm { h.blk frm with nodes := (h.blk frm).nodes ++ (h.blk to).nodes, outs := (h.blk to).outs }
    h.retarget frm (h.isInCut frm) (h.range ω 3 (h.blk frm).outs)

/-- graph.go 266-276 (FindHangingInEdge, called with `create`): the edge found or made. -/
def hangingIn (ω : Order) (h : Heap) (src : Option Nat) (k : EK) (t : Tag) (to : Nat) : Heap × Nat :=
  match h.findEdge ω 4 (h.blk to).ins k t with
  | some d => if (h.edge d).src = none ∨ (h.edge d).src = src then (h, d) else h.newEdge (h.blk to).ins ⟨k, t, none, some to⟩
  | none => h.newEdge (h.blk to).ins ⟨k, t, none, some to⟩

/-- graph.go 945-952: what is done for one edge chosen. -/
def linkOne (ω : Order) (h : Heap) (tk : EK) (tt : Tag) (to : Nat) (over : Bool) (d : Nat) : Heap :=
  let e := h.edge d
  let h := h.setEdge d (if decide (e.dst = none) || over then { e with dst := some to } else e)
  let (h, i) := h.hangingIn ω e.src tk tt to
  h.setEdge i { h.edge i with src := e.src, tag := e.tag }

/-- graph.go 943-954 (linkEdges). -/
def linkEdges (ω : Order) (h : Heap) (fk : EK) (ft : Tag) (tk : EK) (tt : Tag) (to : Nat) (over : Bool) : List Nat → Heap
  | [] => h
  | d :: ds =>
    let e := h.edge d
    linkEdges ω (if decide (e.kind = fk) && (ft.isNone || e.tag.meets ft) then h.linkOne ω tk tt to over d else h)
      fk ft tk tt to over ds

/-- `edge.Tag |= ET_CUT` for the edges with a property. -/
def cutEdges (h : Heap) (p : Edge → Bool) : List Nat → Heap
  | [] => h
  | d :: ds => cutEdges (if p (h.edge d) then h.setEdge d { h.edge d with tag := (h.edge d).tag.withCut } else h) p ds

/-- graph.go 922-940: spreading `ET_CUT`. -/
def spreadCut (ω : Order) (h : Heap) (frm to : Nat) (fromSeq : Option Nat) : Heap :=
  if h.isOutCut ω 5 frm to then
    let h := h.cutEdges (fun e => decide (e.src = fromSeq)) (h.emap (h.blk to).ins)
    match h.isInCutPair to with
    | (true, pair) => h.cutEdges (fun e => !pair || decide (e.kind = .seq)) (h.emap (h.blk to).outs)
    | (false, _) => h
  else h

/-- graph.go 878-885 (LinkFlag). -/
structure Flag where
  sep : Bool := false
  join : Bool := false
  over : Bool := false

/-- graph.go 917-940: the part of `link` that adds edges. -/
def linkSep (ω : Order) (h : Heap) (frm : Nat) (fk : EK) (ft : Tag) (tk : EK) (tt : Tag) (to : Nat) (over : Bool)
    (fromSeq : Option Nat) : Option Heap :=
  (h.unwrapIn ω 7 to).map fun to =>
    (h.linkEdges ω fk ft tk tt to over (h.range ω 8 (h.blk frm).outs)).spreadCut ω frm to fromSeq

/-- graph.go 887-941 (link), for blocks that are not nil. -/
def link (ω : Order) (h : Heap) (frm : Nat) (fk : EK) (ft : Tag) (tk : EK) (tt : Tag) (to : Nat) (fl : Flag) : Option Heap :=
  let fromSeq := h.unwrapOut ω 6 frm
  let apart := h.linkSep ω frm fk ft tk tt to fl.over fromSeq
  if fl.join = true ∨ fk = EK.seq ∧ fl.sep = false ∧ h.onlySeqIn to = true then
    (h.onlySeqOut frm).bind fun o =>
    if o = true ∨ fl.join = true then h.join ω frm to
    else
      match fromSeq with
      | some x =>
        if (h.blk x).kind = BK.basic then
          (h.onlySeqOut x).bind fun o =>
          if o = true ∧ tk = EK.seq ∧ (h.blk to).kind = BK.basic then h.join ω x to else apart
        else apart
      | none => apart
  else apart

/-- graph.go 978-996 (grpBlock), for a `to` that is not nil. -/
def grp (h : Heap) (frm to : Nat) : Heap × Nat :=
  let x := h.xJmp frm
  let (h, vn) :=
    if (h.blk frm).kind = .group then
      let m := h.next
      ({ h with blk := upd h.blk frm { h.blk frm with outs := m }, emap := upd h.emap m [], next := m + 1, tick := h.tick + 1 }, frm)
    else h.newGroup (h.blk frm).ins
  ((h.addOutlets vn (h.xOut to)).addOutlets vn x, vn)

/-- graph.go 427-442 (newJmpOut). -/
def newJmpOut (ω : Order) (h : Heap) (b : Nat) (t : Tag) : Option Heap :=
  (h.outSeq ω 9 b).bind fun s =>
  (h.edge s).src.map fun x =>
    let t := if h.isInCut x then t.withCut else t
    let (h, d) := h.newEdge (h.blk x).outs ⟨.jmp, t, some x, none⟩
    if x ≠ b then h.setMap (h.blk b).outs (addKey (h.emap (h.blk b).outs) d) else h

/-- graph.go 454-477 (newLoopIn, newJmpIn, newIn). -/
def newJmpIn (ω : Order) (h : Heap) (b : Nat) (t : Tag) : Option Heap :=
  (h.inSeq ω 10 b).bind fun s =>
  (h.edge s).dst.map fun x =>
    let (h, d) := h.newEdge (h.blk x).ins ⟨.jmp, t, none, some x⟩
    if x ≠ b then h.setMap (h.blk b).ins (addKey (h.emap (h.blk b).ins) d) else h

/-- graph.go 479-487 (mrkSeqOutAsJmp, mrkSeqOutAsLoop). -/
def markLoop (ω : Order) (h : Heap) (b : Nat) : Option Heap :=
  (h.outSeq ω 11 b).map fun s => h.setEdge s { h.edge s with kind := .jmp, tag := (h.edge s).tag.withLoop }

/-- graph.go 508-510 (mrkSeqOutAsCut). -/
def markCut (ω : Order) (h : Heap) (b : Nat) : Option Heap :=
  (h.outSeq ω 12 b).map fun s => h.setEdge s { h.edge s with tag := (h.edge s).tag.withCut }

/-- graph.go 489-498 (addCutOutEdge): `util.PickOne` gives any edge. -/
def addCutOut (ω : Order) (h : Heap) (b : Nat) : Option Heap :=
  (h.pick ω 13 (h.blk b).outs fun _ => true).bind fun s =>
  (h.edge s).src.map fun x =>
    let (h, d) := h.newEdge (h.blk x).outs ⟨.seq, { cut := true }, some x, none⟩
    if x ≠ b then h.setMap (h.blk b).outs (addKey (h.emap (h.blk b).outs) d) else h

/-- graph.go 500-506 (mrkJmpOutAsLoop). -/
def markJmpLoop (h : Heap) (t : Tag) : List Nat → Heap
  | [] => h
  | d :: ds =>
    markJmpLoop (if decide ((h.edge d).kind = .jmp) && (h.edge d).tag.meets t
      then h.setEdge d { h.edge d with tag := (h.edge d).tag.withLoop } else h) t ds

end Heap

end Mole.Cfg
