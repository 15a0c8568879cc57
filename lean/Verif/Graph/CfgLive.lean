import Verif.Graph.CfgBuild

/-! Nothing in the graph of a program without jumps is marked as dead. -/

namespace Mole.Cfg

/-- No edge is marked as dead, and every block has an incoming edge. -/
structure Live (h : Heap) : Prop where
  cut : ∀ d, (h.edge d).tag.cut = false
  lt : ∀ b, (h.blk b).ins < h.next
  ne : ∀ b, h.emap (h.blk b).ins ≠ []

theorem foldl_addKey_ne (ds : List Nat) : ∀ {l : List Nat}, l ≠ [] → ds.foldl Heap.addKey l ≠ [] := by
  induction ds with
  | nil => intro l k; exact k
  | cons d ds ih =>
    intro l k
    refine ih ?_
    unfold Heap.addKey
    split
    · exact k
    · simp

theorem addKey_ne {l : List Nat} {d : Nat} (k : l ≠ []) : Heap.addKey l d ≠ [] := foldl_addKey_ne [d] k

namespace Live

variable {h h' : Heap} {ω : Order}

theorem newBlk (l : Live h) (k : BK) (nodes : List Node) : Live (h.newBlk k nodes).1 := by
  refine ⟨?_, ?_, ?_⟩
  · intro d
    simp only [Heap.newBlk, upd]
    split
    · rfl
    · split
      · rfl
      · exact l.cut d
  · intro b
    simp only [Heap.newBlk, upd]
    split
    · show h.next < h.next + 2; omega
    · have := l.lt b; omega
  · intro b
    have := l.lt b
    have := l.ne b
    simp only [Heap.newBlk, upd]
    by_cases k : b = h.next
    · simp [k]
    · simp only [if_neg k]
      rw [if_neg (by omega), if_neg (by omega)]
      exact this

theorem newGroup (l : Live h) (A : Nat) : Live (h.newGroup (h.blk A).ins).1 := by
  refine ⟨l.cut, ?_, ?_⟩
  · intro b
    simp only [Heap.newGroup, upd]
    split
    · have := l.lt A; show (h.blk A).ins < _; omega
    · have := l.lt b; omega
  · intro b
    have := l.lt b
    have := l.lt A
    have := l.ne b
    have := l.ne A
    simp only [Heap.newGroup, upd]
    by_cases k : b = h.next
    · simp only [if_pos k]; rw [if_neg (by omega)]; assumption
    · simp only [if_neg k]; rw [if_neg (by omega)]; assumption

theorem setEdge (l : Live h) (d : Nat) (v : Edge) (k : v.tag.cut = false) : Live (h.setEdge d v) := by
  refine ⟨?_, l.lt, l.ne⟩
  intro e
  simp only [Heap.setEdge, upd]
  split
  · exact k
  · exact l.cut e

theorem setOuts (l : Live h) (b : Nat) (nodes : List Node) (outs : Nat) : Live (h.setBlk b { h.blk b with nodes := nodes, outs := outs }) := by
  have ins : ∀ c, ((h.setBlk b { h.blk b with nodes := nodes, outs := outs }).blk c).ins = (h.blk c).ins := by
    intro c
    simp only [Heap.setBlk, upd]
    split
    · next k => rw [k]
    · rfl
  exact ⟨l.cut, fun c => by rw [ins]; exact l.lt c, fun c => by rw [ins]; exact l.ne c⟩

theorem setMap (l : Live h) (m : Nat) {v : List Nat} (k : h.emap m ≠ [] → v ≠ []) : Live (h.setMap m v) := by
  refine ⟨l.cut, l.lt, ?_⟩
  intro b
  have := l.ne b
  simp only [Heap.setMap, upd]
  split
  · next e => rw [e] at this; exact k this
  · exact this

theorem addOutlets (l : Live h) (b : Nat) (ds : List Nat) : Live (h.addOutlets b ds) := l.setMap _ (foldl_addKey_ne ds)

theorem newEdge (l : Live h) (m : Nat) (e : Edge) (k : e.tag.cut = false) : Live (h.newEdge m e).1 := by
  refine ⟨?_, ?_, ?_⟩
  · intro d
    simp only [Heap.newEdge, upd]
    split
    · exact k
    · exact l.cut d
  · intro b
    show (h.blk b).ins < h.next + 1
    have := l.lt b; omega
  · intro b
    have := l.ne b
    simp only [Heap.newEdge, upd]
    split
    · simp
    · exact this

theorem isInCut (l : Live h) (b : Nat) : h.isInCut b = false := by
  have := l.ne b
  rw [Heap.isInCut]
  cases e : h.emap (h.blk b).ins with
  | nil => exact absurd e this
  | cons d ds => rw [List.all_cons, l.cut d]; rfl

theorem retarget (src : Nat) (ds : List Nat) : ∀ {h : Heap}, Live h → Live (h.retarget src false ds) := by
  induction ds with
  | nil => intro h l; exact l
  | cons d ds ih => intro h l; exact ih (l.setEdge d _ (by simpa using l.cut d))

theorem join (l : Live h) (b c : Nat) (e : h.join ω b c = some h') : Live h' := by
  obtain ⟨to, _, e⟩ := Option.bind_eq_some_iff.mp e
  obtain ⟨frm, _, e⟩ := Option.map_eq_some_iff.mp e
  have l1 := l.setOuts frm ((h.blk frm).nodes ++ (h.blk to).nodes) (h.blk to).outs
  dsimp only at e
  rw [l1.isInCut frm] at e
  rw [← e]
  exact retarget _ _ l1

theorem hangingIn (l : Live h) (src : Option Nat) (tk : EK) (tt : Tag) (ct : tt.cut = false) (to : Nat) : Live (h.hangingIn ω src tk tt to).1 := by
  unfold Heap.hangingIn
  split
  · split
    · exact l
    · exact l.newEdge _ ⟨tk, tt, none, some to⟩ ct
  · exact l.newEdge _ ⟨tk, tt, none, some to⟩ ct

theorem linkOne (l : Live h) (tk : EK) (tt : Tag) (ct : tt.cut = false) (to : Nat) (over : Bool) (d : Nat) : Live (h.linkOne ω tk tt to over d) := by
  have l1 : Live (h.setEdge d (if decide ((h.edge d).dst = none) || over then { h.edge d with dst := some to } else h.edge d)) :=
    l.setEdge d _ (by split <;> exact l.cut d)
  exact (l1.hangingIn _ tk tt ct to).setEdge _ _ (l.cut d)

theorem linkEdges (fk : EK) (ft : Tag) (tk : EK) (tt : Tag) (ct : tt.cut = false) (to : Nat) (over : Bool) (ds : List Nat) : ∀ {h : Heap}, Live h → Live (h.linkEdges ω fk ft tk tt to over ds) := by
  induction ds with
  | nil => intro h l; exact l
  | cons d ds ih =>
    intro h l
    simp only [Heap.linkEdges]
    refine ih ?_
    split
    · exact l.linkOne tk tt ct to over d
    · exact l

theorem link (l : Live h) (frm : Nat) (fk : EK) (ft : Tag) (tk : EK) (tt : Tag) (ct : tt.cut = false) (to : Nat) (fl : Heap.Flag) (e : h.link ω frm fk ft tk tt to fl = some h') : Live h' := by
  have apart : ∀ h', h.linkSep ω frm fk ft tk tt to fl.over (h.unwrapOut ω 6 frm) = some h' → Live h' := by
    intro h' e
    obtain ⟨to', _, e⟩ := Option.map_eq_some_iff.mp e
    have l1 := linkEdges (ω := ω) fk ft tk tt ct to' fl.over (h.range ω 8 (h.blk frm).outs) l
    rw [← e]
    unfold Heap.spreadCut
    rw [if_neg]
    · exact l1
    · unfold Heap.isOutCut
      split
      · next d k =>
        have := List.find?_some k
        dsimp only at this
        rw [l1.cut d] at this
        cases this
      · simp
  simp only [Heap.link] at e
  split at e
  · obtain ⟨o, _, e⟩ := Option.bind_eq_some_iff.mp e
    split at e
    · exact l.join _ _ e
    · split at e
      · split at e
        · obtain ⟨o, _, e⟩ := Option.bind_eq_some_iff.mp e
          split at e
          · exact l.join _ _ e
          · exact apart _ e
        · exact apart _ e
      · exact apart _ e
  · exact apart _ e

theorem grp (l : Live h) (frm to : Nat) : Live (h.grp frm to).1 := by
  unfold Heap.grp
  refine addOutlets (addOutlets ?_ _ _) _ _
  split
  · refine ⟨l.cut, ?_, ?_⟩
    · intro b
      have := l.lt b
      have := l.lt frm
      simp only [upd]
      split <;> (show _ < h.next + 1)
      · show (h.blk frm).ins < _; omega
      · omega
    · intro b
      have q : ((if b = frm then { h.blk frm with outs := h.next } else h.blk b) : Block).ins = (h.blk b).ins := by
        split
        · next k => rw [k]
        · rfl
      have := l.lt b
      have := l.ne b
      simp only [upd, q]
      rw [if_neg (by omega)]
      exact this
  · exact l.newGroup frm

theorem newJmpOut (l : Live h) (b : Nat) (t : Tag) (ct : t.cut = false) (e : h.newJmpOut ω b t = some h') : Live h' := by
  obtain ⟨s, _, e⟩ := Option.bind_eq_some_iff.mp e
  obtain ⟨x, _, e⟩ := Option.map_eq_some_iff.mp e
  dsimp only at e
  rw [l.isInCut x] at e
  have l1 := l.newEdge (h.blk x).outs ⟨.jmp, t, some x, none⟩ ct
  rw [← e]
  simp only [Bool.false_eq_true, if_false]
  split
  · exact l1.setMap _ addKey_ne
  · exact l1

theorem newJmpIn (l : Live h) (b : Nat) (t : Tag) (ct : t.cut = false) (e : h.newJmpIn ω b t = some h') : Live h' := by
  obtain ⟨s, _, e⟩ := Option.bind_eq_some_iff.mp e
  obtain ⟨x, _, e⟩ := Option.map_eq_some_iff.mp e
  have l1 := l.newEdge (h.blk x).ins ⟨.jmp, t, none, some x⟩ ct
  rw [← e]
  dsimp only
  split
  · exact l1.setMap _ addKey_ne
  · exact l1

theorem markLoop (l : Live h) (b : Nat) (e : h.markLoop ω b = some h') : Live h' := by
  obtain ⟨s, _, e⟩ := Option.map_eq_some_iff.mp e
  rw [← e]
  exact l.setEdge _ _ (l.cut s)

end Live

/-! ## The handlers -/

/-- A step that keeps the graph alive. -/
def Keeps (r : Option (Heap × Nat)) : Prop := ∀ p, r = some p → Live p.1

def KeepsH (r : Option Heap) : Prop := ∀ h, r = some h → Live h

theorem Keeps.bind {o : Option Heap} {f : Heap → Option (Heap × Nat)} (a : KeepsH o) (b : ∀ h, Live h → Keeps (f h)) : Keeps (o.bind f) := by
  intro p e
  obtain ⟨h, e1, e2⟩ := Option.bind_eq_some_iff.mp e
  exact b h (a h e1) p e2

theorem KeepsH.bind {o : Option Heap} {f : Heap → Option Heap} (a : KeepsH o) (b : ∀ h, Live h → KeepsH (f h)) : KeepsH (o.bind f) := by
  intro p e
  obtain ⟨h, e1, e2⟩ := Option.bind_eq_some_iff.mp e
  exact b h (a h e1) p e2

theorem Keeps.map {o : Option Heap} {f : Heap → Heap × Nat} (a : KeepsH o) (b : ∀ h, Live h → Live (f h).1) : Keeps (o.map f) := by
  intro p e
  obtain ⟨h, e1, rfl⟩ := Option.map_eq_some_iff.mp e
  exact b h (a h e1)

namespace Live

variable {h : Heap} {ω : Order}

theorem kLink (l : Live h) (frm : Nat) (fk : EK) (ft : Tag) (tk : EK) (tt : Tag) (to : Nat) (fl : Heap.Flag) (ct : tt.cut = false) : KeepsH (h.link ω frm fk ft tk tt to fl) :=
  fun _ e => l.link _ _ _ _ _ ct _ _ e

theorem kSome (l : Live h) : KeepsH (some h) := by rintro _ ⟨⟩; exact l

theorem kBoth (l : Live h) (X : Nat) (ft : Tag) (B : Nat) (sep : Bool) : KeepsH (h.linkBoth ω X ft B sep) :=
  .bind (l.kLink _ _ _ _ _ _ _ rfl) fun _ l => l.kLink _ _ _ _ _ _ _ rfl

theorem exit (l : Live h) (id : Nat) : Live (h.exit id).1 := l.newBlk _ _

theorem unary (l : Live h) (id e x : Nat) : Keeps (h.afterUnary ω id e x) :=
  .bind ((l.exit id).kLink _ _ _ _ _ _ _ rfl) fun _ l => .map ((l.grp _ _).kLink _ _ _ _ _ _ _ rfl) fun _ l => l.grp _ _

theorem wrap (l : Live h) (id e x : Nat) : Keeps (h.afterWrap ω id e x) :=
  .bind (l.kLink _ _ _ _ _ _ _ rfl) fun _ l => .map ((l.exit id).kBoth _ _ _ _) fun _ l => l.grp _ _

theorem chain (l : Live h) (id e x : Nat) : Keeps (h.afterChain ω id e x) :=
  .bind ((l.exit id).kLink _ _ _ _ _ _ _ rfl) fun _ l => .map ((l.grp _ _).kBoth _ _ _ _) fun _ l => l.grp _ _

theorem bin (l : Live h) (id e x y : Nat) : Keeps (h.afterBin ω id e x y) :=
  .bind (l.kLink _ _ _ _ _ _ _ rfl) fun _ l => .bind ((l.grp _ _).kLink _ _ _ _ _ _ _ rfl) fun _ l =>
    .map ((((l.newGroup _).setOuts _ _ _).exit id).kLink _ _ _ _ _ _ _ rfl) fun _ l => l.grp _ _

theorem logic (l : Live h) (stmt : Bool) (op : LOp) (id e x y : Nat) : Keeps (h.afterLogic ω stmt op id e x y) :=
  .bind (l.kLink _ _ _ _ _ _ _ rfl) fun _ l => .bind (fun _ q => (l.grp _ _).newJmpOut _ _ (by split <;> rfl) q) fun _ l =>
    .bind (l.kLink _ _ _ _ _ _ _ rfl) fun _ l => .bind (by
      split
      · exact l.kSome
      · exact l.kLink _ _ _ _ _ _ _ rfl) fun _ l =>
    .bind (by
      split
      · exact ((((l.newGroup _).addOutlets _ _).addOutlets _ _).exit id).kLink _ _ _ _ _ _ _ rfl
      · exact ((((l.newGroup _).addOutlets _ _).addOutlets _ _).exit id).kSome) fun _ l => .map (l.kLink _ _ _ _ _ _ _ rfl) fun _ l => l.grp _ _

theorem cond (l : Live h) (id e x y z : Nat) : Keeps (h.afterCond ω id e x y z) :=
  .bind (fun _ q => (l.exit id).newJmpOut _ _ rfl q) fun _ l => .bind (l.kLink _ _ _ _ _ _ _ rfl) fun _ l => .bind ((l.grp _ _).kLink _ _ _ _ _ _ _ rfl) fun _ l =>
    .bind (l.kLink _ _ _ _ _ _ _ rfl) fun _ l => .bind (l.kLink _ _ _ _ _ _ _ rfl) fun _ l => .map (((l.grp _ _).addOutlets _ _).kBoth _ _ _ _) fun _ l => l.grp _ _

theorem pair (l : Live h) (id e x y : Nat) : Keeps (h.afterPair ω id e x y) :=
  .bind ((l.exit id).kLink _ _ _ _ _ _ _ rfl) fun _ l => .bind (l.kLink _ _ _ _ _ _ _ rfl) fun _ l => .map (l.kBoth _ _ _ _) fun _ l => l.grp _ _

theorem linkBack : ∀ (n : Nat) {h : Heap} (_ : Live h) (st : List Nat) (tt : Nat) {p : Heap × List Nat × Nat}, h.linkBack ω n st tt = some p → Live p.1
  | 0, _, l, _, _, _, e => by cases e; exact l
  | n + 1, h, l, [], _, _, e => by cases e
  | n + 1, h, l, th :: st, tt, p, e => by
    obtain ⟨h1, e1, e⟩ := Option.bind_eq_some_iff.mp e
    exact linkBack n (l.kBoth _ _ _ _ _ e1) _ _ e

theorem popLink (l : Live h) {n : Nat} {st : List Nat} {p : Heap × List Nat × Option (Nat × Nat)} (e : h.popLink ω n st = some p) : Live p.1 := by
  unfold Heap.popLink at e
  split at e
  · cases e; exact l
  · obtain ⟨r, e1, rfl⟩ := Option.map_eq_some_iff.mp e
    exact linkBack _ l _ _ e1
  · cases e

theorem list (l : Live h) (id e : Nat) (es : Option (Nat × Nat)) : Keeps (h.afterList ω id e es) := by
  unfold Heap.afterList
  split
  · exact .map ((l.exit id).kLink _ _ _ _ _ _ _ rfl) fun _ l => l.grp _ _
  · exact .bind ((l.exit id).kLink _ _ _ _ _ _ _ rfl) fun _ l => .map (l.kBoth _ _ _ _) fun _ l => l.grp _ _

theorem call (l : Live h) (id e f : Nat) (es : Option (Nat × Nat)) : Keeps (h.afterCall ω id e f es) :=
  .bind ((l.exit id).kLink _ _ _ _ _ _ _ rfl) fun _ l => .map (by
    split
    · exact l.kLink _ _ _ _ _ _ _ rfl
    · exact .bind (l.kLink _ _ _ _ _ _ _ rfl) fun _ l => l.kBoth _ _ _ _) fun _ l => (l.grp _ _).addOutlets _ _

theorem new (l : Live h) (id e f : Nat) (es : Option (Nat × Nat)) : Keeps (h.afterNew ω id e f es) :=
  .bind ((l.exit id).kLink _ _ _ _ _ _ _ rfl) fun _ l => .map (by
    split
    · exact (l.grp _ _).kBoth _ _ _ _
    · exact .bind ((l.grp _ _).kBoth _ _ _ _) fun _ l => l.kBoth _ _ _ _) fun _ l => l.grp _ _

theorem member (l : Live h) (id e x y : Nat) : Keeps (h.afterMember ω id e x y) :=
  .bind ((l.exit id).kLink _ _ _ _ _ _ _ rfl) fun _ l => .bind (l.kBoth _ _ _ _) fun _ l => .map (l.kBoth _ _ _ _) fun _ l => ((l.grp _ _).addOutlets _ _).addOutlets _ _

theorem exprStmt (l : Live h) (id e x : Nat) : Keeps (h.afterExprStmt ω id e x) :=
  .bind (l.kLink _ _ _ _ _ _ _ rfl) fun _ l => .map (((l.grp _ _).exit id).kBoth _ _ _ _) fun _ l => l.grp _ _

theorem dec (l : Live h) (id e x : Nat) (init : Option Nat) (prev : Nat) : Keeps (h.afterDec ω id e x init prev) :=
  .bind (l.kLink _ _ _ _ _ _ _ rfl) fun _ l => .bind (by
    have l := l.exit id
    split
    · exact .bind (l.kLink _ _ _ _ _ _ _ rfl) fun _ l => l.kBoth _ _ _ _
    · exact l.kLink _ _ _ _ _ _ _ rfl) fun _ l => .map ((l.grp _ _).kLink _ _ _ _ _ _ _ rfl) fun _ l => l.grp _ _

theorem block (l : Live h) (id prev : Nat) : Keeps (h.afterBlock ω id prev) := .map ((l.exit id).kLink _ _ _ _ _ _ _ rfl) fun _ l => l.grp _ _

theorem prog (l : Live h) (id prev : Nat) : Keeps (h.afterProg ω id prev) := .map ((l.exit id).kBoth _ _ _ _) fun _ l => l.grp _ _

theorem ifStmt (l : Live h) (id e t k : Nat) (alt : Option Nat) : Keeps (h.afterIf ω id e t k alt) :=
  .bind (l.kLink _ _ _ _ _ _ _ rfl) fun _ l => .bind (fun _ q => (l.grp _ _).newJmpOut _ _ rfl q) fun _ l => .bind (l.kLink _ _ _ _ _ _ _ rfl) fun _ l =>
    .bind (l.kLink _ _ _ _ _ _ _ rfl) fun _ l => .bind (by
      split
      · exact l.kLink _ _ _ _ _ _ _ rfl
      · exact l.kSome) fun _ l => .map (by
        refine Live.kBoth (Live.exit ?_ id) _ _ _ _
        split
        · exact (((l.newGroup e).addOutlets _ _).addOutlets _ _).addOutlets _ _
        · exact ((l.newGroup e).addOutlets _ _).addOutlets _ _) fun _ l => l.grp _ _

theorem whileStmt (l : Live h) (id e t b : Nat) : Keeps (h.afterWhile ω id e t b) :=
  .bind (fun _ q => l.newJmpOut _ _ rfl q) fun _ l => .bind (fun _ q => l.newJmpIn _ _ rfl q) fun _ l => .bind (l.kLink _ _ _ _ _ _ _ rfl) fun _ l =>
    .bind (l.kLink _ _ _ _ _ _ _ rfl) fun _ l => .bind (l.kLink _ _ _ _ _ _ _ rfl) fun _ l => .bind (l.kLink _ _ _ _ _ _ _ rfl) fun _ l =>
    .bind (l.kLink _ _ _ _ _ _ _ rfl) fun _ l => .bind (fun _ q => l.markLoop _ q) fun _ l =>
    .map (((((l.newGroup e).addOutlets _ _).addOutlets _ _).exit id).kBoth _ _ _ _) fun _ l => l.grp _ _

theorem kInit (l : Live h) (e : Nat) (i : Option Nat) (t : Nat) : KeepsH (h.linkInit ω e i t) := by
  unfold Heap.linkInit
  split
  · exact l.kLink _ _ _ _ _ _ _ rfl
  · exact .bind (l.kLink _ _ _ _ _ _ _ rfl) fun _ l => l.kLink _ _ _ _ _ _ _ rfl

theorem kRound (l : Live h) (t : Nat) (u : Option Nat) (b : Nat) : KeepsH (h.linkRound ω t u b) :=
  .bind (l.kLink _ _ _ _ _ _ _ rfl) fun _ l => by
    split
    · exact .bind (l.kLink _ _ _ _ _ _ _ rfl) fun _ l _ q => l.markLoop _ q
    · exact .bind (l.kLink _ _ _ _ _ _ _ rfl) fun _ l => .bind (l.kLink _ _ _ _ _ _ _ rfl) fun _ l _ q => l.markLoop _ q

theorem half (l : Live h) (e t b : Nat) : Live (h.grpHalf e t b).1 := ((l.newGroup e).addOutlets _ _).addOutlets _ _

theorem forStmt (l : Live h) (id e : Nat) (i : Option Nat) (t : Nat) (u : Option Nat) (b : Nat) : Keeps (h.afterFor ω id e i t u b) :=
  .bind (fun _ q => l.newJmpOut _ _ rfl q) fun _ l => .bind (fun _ q => l.newJmpIn _ _ rfl q) fun _ l => .bind (l.kInit _ _ _) fun _ l =>
    .bind (l.kRound _ _ _) fun _ l => .map (((l.half _ _ _).exit id).kBoth _ _ _ _) fun _ l => l.grp _ _

theorem markJmpLoop (t : Tag) (ds : List Nat) : ∀ {h : Heap}, Live h → Live (h.markJmpLoop t ds) := by
  induction ds with
  | nil => exact fun l => l
  | cons d ds ih =>
    intro h l
    simp only [Heap.markJmpLoop]
    refine ih ?_
    split
    · exact l.setEdge _ _ (l.cut d)
    · exact l

theorem kDo (l : Live h) (e t b : Nat) : KeepsH (h.linkDo ω e t b) :=
  .bind (fun _ q => l.newJmpIn _ _ rfl q) fun _ l => .bind (l.kLink _ _ _ _ _ _ _ rfl) fun _ l => .bind (l.kLink _ _ _ _ _ _ _ rfl) fun _ l =>
    .bind (l.kLink _ _ _ _ _ _ _ rfl) fun _ l => .bind (fun _ q => l.markLoop _ q) fun _ l h' q => by
    obtain ⟨h1, e1, rfl⟩ := Option.map_eq_some_iff.mp q
    exact markJmpLoop _ _ (l.kLink _ _ _ _ _ _ _ rfl _ e1)

theorem doStmt (l : Live h) (id e t b : Nat) : Keeps (h.afterDo ω id e t b) :=
  .bind (fun _ q => l.newJmpOut _ _ rfl q) fun _ l => .bind (l.kDo _ _ _) fun _ l =>
    .bind (((l.half _ _ _).exit id).kLink _ _ _ _ _ _ _ rfl) fun _ l => .map (l.kLink _ _ _ _ _ _ _ rfl) fun _ l => l.grp _ _

theorem eachStmt (l : Live h) (id e x y b : Nat) : Keeps (h.afterEach ω id e x y b) :=
  .bind (fun _ q => l.newJmpIn _ _ rfl q) fun _ l => .bind (l.kLink _ _ _ _ _ _ _ rfl) fun _ l => .bind (l.kLink _ _ _ _ _ _ _ rfl) fun _ l =>
    .bind (fun _ q => l.newJmpOut _ _ rfl q) fun _ l => .bind (l.kLink _ _ _ _ _ _ _ rfl) fun _ l => .bind (fun _ q => l.markLoop _ q) fun _ l =>
    .bind (l.kLink _ _ _ _ _ _ _ rfl) fun _ l => .map ((l.exit id).kLink _ _ _ _ _ _ _ rfl) fun _ l => l.grp _ _

end Live

/-! ## The builder -/

def KeepsC (r : Option Ctx) : Prop := ∀ c, r = some c → Live c.heap

theorem KeepsC.bind {o : Option Ctx} {f : Ctx → Option Ctx} (a : KeepsC o) (b : ∀ c, Live c.heap → KeepsC (f c)) : KeepsC (o.bind f) := by
  intro p e
  obtain ⟨h, e1, e2⟩ := Option.bind_eq_some_iff.mp e
  exact b h (a h e1) p e2

theorem KeepsC.of {o : Option (Heap × Nat)} {f : Heap × Nat → Ctx} (a : Keeps o) (b : ∀ r, (f r).heap = r.1) : KeepsC (o.map f) := by
  intro p e
  obtain ⟨h, e1, rfl⟩ := Option.map_eq_some_iff.mp e
  rw [b]; exact a h e1

theorem KeepsC.then {o : Option (Heap × Nat)} {f : Heap × Nat → Option Ctx} (a : Keeps o) (b : ∀ r, Live r.1 → KeepsC (f r)) : KeepsC (o.bind f) := by
  intro p e
  obtain ⟨h, e1, e2⟩ := Option.bind_eq_some_iff.mp e
  exact b h (a h e1) p e2

theorem KeepsC.none : KeepsC none := by rintro _ ⟨⟩

theorem KeepsC.some {c : Ctx} (l : Live c.heap) : KeepsC (some c) := by rintro _ ⟨⟩; exact l

namespace Live

variable {c : Ctx} {ω : Order}

theorem pushExpr (l : Live c.heap) (nodes : List Node) : Live (c.pushExpr nodes).heap := l.newBlk _ _

theorem pushStmt (l : Live c.heap) (br : Bool) (id : Nat) : KeepsC (c.pushStmt ω br id) := by
  have l1 : Live (c.heap.enter id).1 := l.newBlk _ _
  unfold Ctx.pushStmt
  dsimp only
  split
  · exact .some l1
  · split
    · intro p e
      obtain ⟨h, e1, rfl⟩ := Option.map_eq_some_iff.mp e
      exact (l1.kLink _ _ _ _ _ _ _ rfl _ e1).grp _ _
    · exact .none

theorem expr1 (f : Heap → Nat → Nat → Option (Heap × Nat)) (k : ∀ e a, Keeps (f c.heap e a)) : KeepsC (c.expr1 f) := by
  unfold Ctx.expr1
  split
  · exact .of (k _ _) fun _ => rfl
  · exact .none

theorem expr2 (f : Heap → Nat → Nat → Nat → Option (Heap × Nat)) (k : ∀ e a b, Keeps (f c.heap e a b)) : KeepsC (c.expr2 f) := by
  unfold Ctx.expr2
  split
  · exact .of (k _ _ _) fun _ => rfl
  · exact .none

theorem expr3 (f : Heap → Nat → Nat → Nat → Nat → Option (Heap × Nat)) (k : ∀ e a b d, Keeps (f c.heap e a b d)) : KeepsC (c.expr3 f) := by
  unfold Ctx.expr3
  split
  · exact .of (k _ _ _ _) fun _ => rfl
  · exact .none

theorem exprs0 (l : Live c.heap) (n : Nat) (f : Heap → Nat → Option (Nat × Nat) → Option (Heap × Nat)) (k : ∀ h, Live h → ∀ e es, Keeps (f h e es)) : KeepsC (c.exprs0 ω n f) := by
  intro p q
  obtain ⟨r, e1, q⟩ := Option.bind_eq_some_iff.mp q
  have l1 := l.popLink e1
  revert q
  split
  · exact fun q => KeepsC.of (k _ l1 _ _) (fun _ => rfl) p q
  · exact fun q => KeepsC.none p q

theorem exprs1 (l : Live c.heap) (n : Nat) (f : Heap → Nat → Nat → Option (Nat × Nat) → Option (Heap × Nat)) (k : ∀ h, Live h → ∀ e a es, Keeps (f h e a es)) : KeepsC (c.exprs1 ω n f) := by
  intro p q
  obtain ⟨r, e1, q⟩ := Option.bind_eq_some_iff.mp q
  have l1 := l.popLink e1
  revert q
  split
  · exact fun q => KeepsC.of (k _ l1 _ _ _) (fun _ => rfl) p q
  · exact fun q => KeepsC.none p q

end Live

variable {ω : Order}

mutual

theorem Expr.build_live : ∀ (e : Expr) (stmt : Bool) {c : Ctx}, Live c.heap → KeepsC (e.build ω stmt c)
  | .atom _, _, _, l => .some (l.pushExpr _)
  | .unary _ e, _, _, l => .bind (Expr.build_live e false (l.pushExpr _)) fun _ l => .expr1 _ fun _ _ => l.unary _ _ _
  | .wrap _ e, _, _, l => .bind (Expr.build_live e false (l.pushExpr _)) fun _ l => .expr1 _ fun _ _ => l.wrap _ _ _
  | .chain _ e, _, _, l => .bind (Expr.build_live e false (l.pushExpr _)) fun _ l => .expr1 _ fun _ _ => l.chain _ _ _
  | .bin _ a b, _, _, l => .bind (Expr.build_live a false (l.pushExpr _)) fun _ l => .bind (Expr.build_live b false l) fun _ l => .expr2 _ fun _ _ _ => l.bin _ _ _ _
  | .logic _ _ a b, _, _, l =>
    .bind (Expr.build_live a false (l.pushExpr _)) fun _ l => .bind (Expr.build_live b false l) fun _ l => .expr2 _ fun _ _ _ => l.logic _ _ _ _ _ _
  | .cond _ t k a, _, _, l => .bind (Expr.build_live t false (l.pushExpr _)) fun _ l => .bind (Expr.build_live k false l) fun _ l =>
    .bind (Expr.build_live a false l) fun _ l => .expr3 _ fun _ _ _ _ => l.cond _ _ _ _ _
  | .pair _ a b, _, _, l => .bind (Expr.build_live a false (l.pushExpr _)) fun _ l => .bind (Expr.build_live b false l) fun _ l => .expr2 _ fun _ _ _ => l.pair _ _ _ _
  | .member _ a b, _, _, l => .bind (Expr.build_live a false (l.pushExpr _)) fun _ l => .bind (Expr.build_live b false l) fun _ l => .expr2 _ fun _ _ _ => l.member _ _ _ _
  | .list _ es, _, _, l => .bind (Exprs.build_live es (l.pushExpr _)) fun _ l => l.exprs0 _ _ fun _ l _ _ => l.list _ _ _
  | .call _ f es, _, _, l => .bind (Expr.build_live f false (l.pushExpr _)) fun _ l => .bind (Exprs.build_live es l) fun _ l => l.exprs1 _ _ fun _ l _ _ _ => l.call _ _ _ _
  | .new _ f es, _, _, l => .bind (Expr.build_live f false (l.pushExpr _)) fun _ l => .bind (Exprs.build_live es l) fun _ l => l.exprs1 _ _ fun _ l _ _ _ => l.new _ _ _ _

theorem Exprs.build_live : ∀ (es : Exprs) {c : Ctx}, Live c.heap → KeepsC (es.build ω c)
  | .nil, _, l => .some l
  | .cons e es, _, l => .bind (Expr.build_live e false l) fun _ l => Exprs.build_live es l

end

theorem Decs.build_live : ∀ (ds : Decs) {c : Ctx}, Live c.heap → KeepsC (ds.build ω c)
  | .nil, _, l => .some l
  | .bare _ e ds, _, l => .bind (Expr.build_live e false (l.pushExpr _)) fun _ l => by
    split
    · exact .then (l.dec _ _ _ _ _) fun _ l => Decs.build_live ds l
    · exact .none
  | .init _ e v ds, _, l => .bind (Expr.build_live e false (l.pushExpr _)) fun _ l => .bind (Expr.build_live v false l) fun _ l => by
    split
    · exact .then (l.dec _ _ _ _ _) fun _ l => Decs.build_live ds l
    · exact .none

theorem Init.build_live : ∀ (i : Init) {c : Ctx}, Live c.heap → KeepsC (i.build ω c)
  | .none, _, l => .some l
  | .expr e, _, l => Expr.build_live e false l
  | .var id ds, c, l => KeepsC.bind (o := c.pushStmt ω true id) (l.pushStmt _ _) fun _ l => KeepsC.bind (Decs.build_live ds l) fun _ l => by
    split
    · exact .of (l.block _ _) fun _ => rfl
    · exact .none

theorem buildOpt_live : ∀ (u : Option Expr) {c : Ctx}, Live c.heap → KeepsC (buildOpt ω u c)
  | .none, _, l => .some l
  | .some e, _, l => Expr.build_live e false l

mutual

theorem Stmt.build_live : ∀ (s : Stmt) (br : Bool) {c : Ctx}, Live c.heap → KeepsC (s.build ω br c)
  | .expr _ e, _, _, l => .bind (l.pushStmt _ _) fun _ l => .bind (Expr.build_live e true l) fun _ l => by
    split
    · exact .of (l.exprStmt _ _ _) fun _ => rfl
    · exact .none
  | .var _ ds, _, _, l => .bind (l.pushStmt _ _) fun _ l => .bind (Decs.build_live ds l) fun _ l => by
    split
    · exact .of (l.block _ _) fun _ => rfl
    · exact .none
  | .block _ ss, _, _, l => .bind (l.pushStmt _ _) fun _ l => .bind (Stmts.build_live ss l) fun _ l => by
    split
    · exact .of (l.block _ _) fun _ => rfl
    · exact .none
  | .ifThen _ t k, _, _, l => .bind (l.pushStmt _ _) fun _ l => .bind (Expr.build_live t false l) fun _ l => .bind (Stmt.build_live k true l) fun _ l => by
    split
    · exact .of (l.ifStmt _ _ _ _ _) fun _ => rfl
    · exact .none
  | .ifElse _ t k a, _, _, l => .bind (l.pushStmt _ _) fun _ l => .bind (Expr.build_live t false l) fun _ l => .bind (Stmt.build_live k true l) fun _ l =>
    .bind (Stmt.build_live a true l) fun _ l => by
    split
    · exact .of (l.ifStmt _ _ _ _ _) fun _ => rfl
    · exact .none
  | .while _ t b, _, _, l => .bind (l.pushStmt _ _) fun _ l => .bind (Expr.build_live t false l) fun _ l => .bind (Stmt.build_live b true l) fun _ l => by
    split
    · exact .of (l.whileStmt _ _ _ _) fun _ => rfl
    · exact .none
  | .doWhile _ b t, _, _, l => .bind (l.pushStmt _ _) fun _ l => .bind (Stmt.build_live b true l) fun _ l => .bind (Expr.build_live t false l) fun _ l => by
    split
    · exact .of (l.doStmt _ _ _ _) fun _ => rfl
    · exact .none
  | .for _ i t u b, _, _, l => .bind (l.pushStmt _ _) fun _ l => .bind (Init.build_live i l) fun _ l => .bind (Expr.build_live t false l) fun _ l =>
    .bind (buildOpt_live u l) fun _ l => .bind (Stmt.build_live b true l) fun c l => by
    intro c' q
    obtain ⟨p, _, q⟩ := Option.bind_eq_some_iff.mp q
    revert q
    split
    · intro q
      obtain ⟨p', _, q⟩ := Option.bind_eq_some_iff.mp q
      exact KeepsC.of (l.forStmt _ _ _ _ _ _) (fun _ => rfl) _ q
    · exact fun q => KeepsC.none _ q
  | .each _ i e b, _, _, l => .bind (l.pushStmt _ _) fun _ l => .bind (Init.build_live i l) fun _ l => .bind (Expr.build_live e false l) fun _ l =>
    .bind (Stmt.build_live b true l) fun _ l => by
    split
    · exact .of (l.eachStmt _ _ _ _ _) fun _ => rfl
    · exact .none

theorem Stmts.build_live : ∀ (ss : Stmts) {c : Ctx}, Live c.heap → KeepsC (ss.build ω c)
  | .nil, _, l => .some l
  | .cons s ss, _, l => .bind (Stmt.build_live s false l) fun _ l => Stmts.build_live ss l

end

theorem analyse_live {id : Nat} {ss : Stmts} {h : Heap} (e : analyse ω id ss = some h) : Live h := by
  have l0 : Live Ctx.start.heap := by
    refine ⟨?_, ?_, ?_⟩
    · rintro (_ | _ | d) <;> rfl
    · rintro (_ | b)
      · exact Nat.zero_lt_two
      · exact Nat.zero_lt_two
    · rintro (_ | b)
      · exact List.cons_ne_nil _ _
      · exact List.cons_ne_nil _ _
  obtain ⟨c1, e1, e⟩ := Option.bind_eq_some_iff.mp e
  obtain ⟨c2, e2, e⟩ := Option.bind_eq_some_iff.mp e
  have l2 := Stmts.build_live ss (l0.pushStmt _ _ _ e1) _ e2
  split at e
  · obtain ⟨r, e3, rfl⟩ := Option.map_eq_some_iff.mp e
    exact l2.prog _ _ _ e3
  · cases e

end Mole.Cfg
