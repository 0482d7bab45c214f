import Verif.Model.Vec
/-!
# Model of `bb_tree.go`: the paired dynamic and static bounding box trees

Simplifications, all in one place:

* Shapes are identified by a number (the pointer `obj`). A leaf node is identified with its shape, so a shape may be
  in one of the two trees only (the space keeps it so, see C23).
* Nodes are immutable values. The `parent` pointers (bb_tree.go:420, 426-434) become paths: the walk
  `node.parent` from a leaf is `siblings`. `SubtreeRemove` by parent pointers is a recursion along the path.
  That the nodes in memory implement this is the subject of C97 (`Verif/Props/TreeHeap.lean`).
* A leaf carries its stamp. The code writes `leaf.stamp` just after linking the leaf into the tree
  (bb_tree.go:107-109, 304-307); linking does not read it, so the model writes it just before.
* The doubly linked pair lists threaded through leaves (bb_tree.go:16-56, 139-165, 313-330) become one list of
  pairs, newest first; the list of a leaf is the sublist of pairs containing it. That the pointer structure
  implements this is the subject of C74 (`Verif/Props/PairHeap.lean`).
* `collisionId` (a cache for the separation search) is not modelled.
* The hash set `leaves` is the set of leaves of the tree; its enumeration order is an arbitrary permutation
  chosen by the environment (C01 proves that `Each` visits each element once).
* `bbfunc` and `velocityFunc` are functions given anew for each operation, since shapes move between
  operations.
-/
namespace Cm
namespace BBTree

/-- A leaf node: bb_tree.go:20-23, 417-424. -/
structure Leaf (K : Type) where
  id : Nat
  bb : BB K
  stamp : Nat

/-- bb_tree.go:417-424: `IsLeaf` is `obj != nil` (489-491). -/
inductive Tree (K : Type) where
  | leaf (l : Leaf K)
  | node (bb : BB K) (a b : Tree K)

namespace Tree
variable {K : Type} [Zero K] [One K] [Add K] [Sub K] [Mul K] [Div K] [Neg K] [NatCast K] [LinearOrder K]

/-- field `bb` -/
def bb : Tree K → BB K
  | leaf l => l.bb
  | node b _ _ => b

/-- The leaves in tree order (left to right). -/
def leaves : Tree K → List (Leaf K)
  | leaf l => [l]
  | node _ a b => a.leaves ++ b.leaves

/-- Is shape `i` a leaf below this node? Stands for following parent pointers from the leaf of `i`. -/
def has (i : Nat) : Tree K → Bool
  | leaf l => l.id == i
  | node _ a b => a.has i || b.has i

/-- bb_tree.go:364-373 -/
def newNode (a b : Tree K) : Tree K := node (a.bb.merge b.bb) a b

/-- The choice of bb_tree.go:199-207: is the new leaf put below `b`? -/
def goesRight (a b : Tree K) (lb : BB K) : Bool :=
  let costA := b.bb.area + a.bb.mergedArea lb
  let costB := a.bb.area + b.bb.mergedArea lb
  if costA = costB then decide (b.bb.proximity lb < a.bb.proximity lb) else decide (costB < costA)

/-- bb_tree.go:191-215 for a non nil subtree. -/
def insert (l : Leaf K) : Tree K → Tree K
  | leaf l' => newNode (leaf l) (leaf l')
  | node bb a b =>
    if goesRight a b l.bb then node (bb.merge l.bb) a (b.insert l)
    else node (bb.merge l.bb) (a.insert l) b

/-- bb_tree.go:217-246: `none` is the nil subtree. The boxes of all ancestors are recomputed (243-245). -/
def remove (i : Nat) : Tree K → Option (Tree K)
  | leaf l => if l.id == i then none else some (leaf l)
  | node bb a b =>
    if a.has i then
      match a.remove i with
      | none => some b
      | some a' => some (node (a'.bb.merge b.bb) a' b)
    else if b.has i then
      match b.remove i with
      | none => some a
      | some b' => some (node (a.bb.merge b'.bb) a b')
    else some (node bb a b)

/-- The leaf node of a shape. -/
def find? (i : Nat) : Tree K → Option (Leaf K)
  | leaf l => if l.id == i then some l else none
  | node _ a b => (a.find? i).or (b.find? i)

/-- The loop `for node := leaf; node.parent != nil; node = node.parent` of bb_tree.go:444-450, seen from the leaf
of shape `i`: the sibling subtrees from the bottom up; `true` when the sibling is the `b` child. -/
def siblings (i : Nat) : Tree K → List (Bool × Tree K)
  | leaf _ => []
  | node _ a b => if a.has i then a.siblings i ++ [(true, b)] else b.siblings i ++ [(false, a)]

/-- bb_tree.go:493-502: the shapes on which the query callback is called, in order. -/
def query (q : BB K) : Tree K → List Nat
  | leaf l => if l.bb.intersects q then [l.id] else []
  | node bb a b => if bb.intersects q then a.query q ++ b.query q else []

/-- bb_tree.go:512-537. `f` is the callback `SpatialIndexSegmentQuery` acting on the state `σ`. -/
def segmentQuery {σ : Type} (inf : K) (p q : V2 K) (f : Nat → σ → K × σ) : Tree K → K → σ → K × σ
  | leaf l, _, w => f l.id w
  | node _ a b, tExit, w =>
    let tA := a.bb.segmentQuery inf p q
    let tB := b.bb.segmentQuery inf p q
    if tA < tB then
      let (tExit, w) := if tA < tExit then
          let r := a.segmentQuery inf p q f tExit w
          (min tExit r.1, r.2) else (tExit, w)
      if tB < tExit then
        let r := b.segmentQuery inf p q f tExit w
        (min tExit r.1, r.2) else (tExit, w)
    else
      let (tExit, w) := if tB < tExit then
          let r := b.segmentQuery inf p q f tExit w
          (min tExit r.1, r.2) else (tExit, w)
      if tA < tExit then
        let r := a.segmentQuery inf p q f tExit w
        (min tExit r.1, r.2) else (tExit, w)

end Tree

/-- The two trees, the stamp of the master (dynamic) tree, and all pairs, newest first. -/
structure State (K : Type) where
  dyn : Option (Tree K)
  stat : Option (Tree K)
  stamp : Nat
  pairs : List (Nat × Nat)

/-- Pairs and the calls of the query callback made so far (first argument, second argument), oldest first. -/
structure Marks where
  pairs : List (Nat × Nat)
  calls : List (Nat × Nat)

variable {K : Type} [Zero K] [One K] [Add K] [Sub K] [Mul K] [Div K] [Neg K] [NatCast K] [LinearOrder K]

/-- Leaves of a possibly nil root. -/
def leavesOf (t : Option (Tree K)) : List (Leaf K) := (t.map Tree.leaves).getD []

/-- bb_tree.go:464-480 -/
def markLeafQuery (leaf : Leaf K) (left : Bool) : Tree K → Marks → Marks
  | .leaf s, m =>
    if leaf.bb.intersects s.bb then
      if left then { m with pairs := (leaf.id, s.id) :: m.pairs }
      else
        { pairs := if s.stamp < leaf.stamp then (s.id, leaf.id) :: m.pairs else m.pairs
          calls := m.calls ++ [(leaf.id, s.id)] }
    else m
  | .node bb a b, m =>
    if leaf.bb.intersects bb then markLeafQuery leaf left b (markLeafQuery leaf left a m) else m

/-- bb_tree.go:439-442 -/
def markStatic (leaf : Leaf K) (staticRoot : Option (Tree K)) (m : Marks) : Marks :=
  match staticRoot with
  | some sr => markLeafQuery leaf false sr m
  | none => m

/-- bb_tree.go:436-462, for a leaf of the dynamic tree with root `root`. -/
def markLeaf (stamp : Nat) (root : Tree K) (staticRoot : Option (Tree K)) (leaf : Leaf K) (m : Marks) : Marks :=
  if leaf.stamp = stamp then
    let m := markStatic leaf staticRoot m
    (root.siblings leaf.id).foldl (fun m s => markLeafQuery leaf s.1 s.2 m) m
  else
    -- the leaf's own pair list, newest first
    ((m.pairs.filter (fun p => p.1 == leaf.id || p.2 == leaf.id)).foldl
      (fun m p => if p.2 == leaf.id then { m with calls := m.calls ++ [(p.1, leaf.id)] } else m) m)

/-- bb_tree.go:503-510; `root` is the root of the whole tree, needed for the upward walks. -/
def markSubtree (stamp : Nat) (root : Tree K) (staticRoot : Option (Tree K)) : Tree K → Marks → Marks
  | .leaf l, m => markLeaf stamp root staticRoot l m
  | .node _ a b, m => markSubtree stamp root staticRoot b (markSubtree stamp root staticRoot a m)

/-- bb_tree.go:313-330 on the list representation. -/
def pairsClear (i : Nat) (pairs : List (Nat × Nat)) : List (Nat × Nat) :=
  pairs.filter (fun p => !(p.1 == i || p.2 == i))

/-- bb_tree.go:345-362 with a velocity function (dynamic tree: space.go:127). -/
def fatBB (bb : BB K) (v : V2 K) : BB K :=
  let coef : K := 1/10
  let x := (bb.R - bb.L) * coef
  let y := (bb.T - bb.B) * coef
  let v := v.scale (1/10)
  ⟨bb.L + min (-x) v.x, bb.B + min (-y) v.y, bb.R + max x v.x, bb.T + max y v.y⟩

/-- `SubtreeInsert` on a possibly nil root: bb_tree.go:191-194. -/
def insertRoot (l : Leaf K) : Option (Tree K) → Tree K
  | none => .leaf l
  | some t => t.insert l

/-- `VoidQueryFunc` (bb_tree.go:539-541) makes no observable call: keep the pairs, drop the calls. -/
def voidMarks (s : State K) (g : Marks → Marks) : State K := { s with pairs := (g ⟨s.pairs, []⟩).pairs }

/-- `LeafAddPairs` for a leaf of the dynamic tree: bb_tree.go:132-136. -/
def leafAddPairsDyn (s : State K) (l : Leaf K) : State K :=
  match s.dyn with
  | none => s
  | some root => voidMarks s (markLeaf s.stamp root s.stat l)

/-- `LeafAddPairs` for a leaf of the static tree: bb_tree.go:125-131. -/
def leafAddPairsStat (s : State K) (l : Leaf K) : State K :=
  match s.dyn with
  | none => s
  | some root => voidMarks s (markLeafQuery l true root)

/-- `Insert` in the dynamic tree: bb_tree.go:101-112. Inserting a shape which is already there would link its leaf
twice; the space never does it (C23), and the model refuses. -/
def insertDyn (s : State K) (i : Nat) (bb : BB K) (v : V2 K) : Option (State K) :=
  if (leavesOf s.dyn ++ leavesOf s.stat).any (fun l => l.id == i) then none else
  let l : Leaf K := ⟨i, fatBB bb v, s.stamp⟩
  let s := leafAddPairsDyn { s with dyn := some (insertRoot l s.dyn) } l
  some { s with stamp := s.stamp + 1 }

/-- `Insert` in the static tree, which has no velocity function: bb_tree.go:101-112, 361. -/
def insertStat (s : State K) (i : Nat) (bb : BB K) : Option (State K) :=
  if (leavesOf s.dyn ++ leavesOf s.stat).any (fun l => l.id == i) then none else
  let l : Leaf K := ⟨i, bb, s.stamp⟩
  let s := leafAddPairsStat { s with stat := some (insertRoot l s.stat) } l
  some { s with stamp := s.stamp + 1 }

/-- `Remove`: bb_tree.go:248-254. An absent shape gives a nil leaf and a nil dereference: `none`. -/
def removeDyn (s : State K) (i : Nat) : Option (State K) :=
  match s.dyn with
  | none => none
  | some t => if t.has i then some { s with dyn := t.remove i, pairs := pairsClear i s.pairs } else none

/-- `Remove` from the static tree: bb_tree.go:248-254. -/
def removeStat (s : State K) (i : Nat) : Option (State K) :=
  match s.stat with
  | none => none
  | some t => if t.has i then some { s with stat := t.remove i, pairs := pairsClear i s.pairs } else none

/-- `LeafUpdate` in the dynamic tree: bb_tree.go:296-312. Returns the new leaf when it moved. -/
def leafUpdateDyn (s : State K) (i : Nat) (bb : BB K) (v : V2 K) : State K × Option (Leaf K) :=
  match s.dyn with
  | none => (s, none)
  | some t =>
    match t.find? i with
    | none => (s, none)
    | some old =>
      if old.bb.contains bb then (s, none)
      else
        let l : Leaf K := ⟨i, fatBB bb v, s.stamp⟩
        ({ s with dyn := some (insertRoot l (t.remove i)), pairs := pairsClear i s.pairs }, some l)

/-- `LeafUpdate` in the static tree. -/
def leafUpdateStat (s : State K) (i : Nat) (bb : BB K) : State K × Option (Leaf K) :=
  match s.stat with
  | none => (s, none)
  | some t =>
    match t.find? i with
    | none => (s, none)
    | some old =>
      if old.bb.contains bb then (s, none)
      else
        let l : Leaf K := ⟨i, bb, s.stamp⟩
        ({ s with stat := some (insertRoot l (t.remove i)), pairs := pairsClear i s.pairs }, some l)

/-- `ReindexObject` in the dynamic tree: bb_tree.go:260-268. -/
def reindexDyn (s : State K) (i : Nat) (bb : BB K) (v : V2 K) : State K :=
  if (leavesOf s.dyn).any (fun l => l.id == i) then
    let r := leafUpdateDyn s i bb v
    let s := match r.2 with
      | some l => leafAddPairsDyn r.1 l
      | none => r.1
    { s with stamp := s.stamp + 1 }
  else s

/-- `ReindexObject` in the static tree. -/
def reindexStat (s : State K) (i : Nat) (bb : BB K) : State K :=
  if (leavesOf s.stat).any (fun l => l.id == i) then
    let r := leafUpdateStat s i bb
    let s := match r.2 with
      | some l => leafAddPairsStat r.1 l
      | none => r.1
    { s with stamp := s.stamp + 1 }
  else s

/-- `ReindexQuery` of the dynamic tree: bb_tree.go:270-294. `order` is the order in which the hash set enumerates
the leaves. Returns the calls of `f`. (With an empty static tree `CollideStatic` returns at once: its count is
0, spatial_index.go:96.) -/
def reindexQuery (s : State K) (order : List Nat) (bbf : Nat → BB K) (vel : Nat → V2 K) :
    State K × List (Nat × Nat) :=
  match s.dyn with
  | none => (s, [])
  | some _ =>
    let s := order.foldl (fun s i => (leafUpdateDyn s i (bbf i) (vel i)).1) s
    match s.dyn with
    | none => (s, [])
    | some root =>
      let m := markSubtree s.stamp root s.stat root ⟨s.pairs, []⟩
      ({ s with pairs := m.pairs, stamp := s.stamp + 1 }, m.calls)

/-- Operations on the pair of indexes. Boxes and velocities are those at the time of the call. -/
inductive Op (K : Type) where
  | insertDyn (i : Nat) (bb : BB K) (v : V2 K)
  | insertStat (i : Nat) (bb : BB K)
  | removeDyn (i : Nat)
  | removeStat (i : Nat)
  | reindexDyn (i : Nat) (bb : BB K) (v : V2 K)
  | reindexStat (i : Nat) (bb : BB K)
  | reindexQuery (order : List Nat) (bbf : Nat → BB K) (vel : Nat → V2 K)

/-- The two empty trees made by `NewSpace`: bb_tree.go:79-85, space.go:125-127. -/
def init : State K := ⟨none, none, 0, []⟩

/-- One operation; `none` is a crash or a refused double insertion. -/
def step (s : State K) : Op K → Option (State K × List (Nat × Nat))
  | .insertDyn i bb v => (insertDyn s i bb v).map (·, [])
  | .insertStat i bb => (insertStat s i bb).map (·, [])
  | .removeDyn i => (removeDyn s i).map (·, [])
  | .removeStat i => (removeStat s i).map (·, [])
  | .reindexDyn i bb v => some (reindexDyn s i bb v, [])
  | .reindexStat i bb => some (reindexStat s i bb, [])
  | .reindexQuery order bbf vel => some (reindexQuery s order bbf vel)

/-- A history of operations (calls into bb_tree.go made by the space). -/
def run (s : State K) : List (Op K) → Option (State K)
  | [] => some s
  | op :: ops => match step s op with
    | none => none
    | some (s', _) => run s' ops

end BBTree
end Cm

/-! ## Queries of the space over the two indexes -/
namespace Cm
namespace BBTree
variable {K : Type} [Zero K] [One K] [Add K] [Sub K] [Mul K] [Div K] [Neg K] [NatCast K] [LinearOrder K]

/-- `BBTree.Query`: bb_tree.go:332-336 -/
def queryRoot (q : BB K) (t : Option (Tree K)) : List Nat := match t with
  | none => []
  | some t => t.query q

/-- `Space.BBQuery`: space.go:944-958. `cur` is `shape.BB`, `flt` is `shape.Filter`. The result lists the shapes on which
the user's function is called, in order. -/
def spaceBBQuery (s : State K) (q : BB K) (filter : ShapeFilter) (cur : Nat → BB K) (flt : Nat → ShapeFilter) : List Nat :=
  let keep := fun i => !(flt i).reject filter && (cur i).intersects q
  (queryRoot q s.stat).filter keep ++ (queryRoot q s.dyn).filter keep

/-- The part of `SegmentQueryInfo` that matters for choosing the first hit (everything.go). -/
structure Out (K : Type) where
  alpha : K
  shape : Option Nat

/-- `queryFirst`: space.go:1243-1256. `hit i = some α` when the shape passes the filter, is no sensor and
`shape.SegmentQuery` succeeds with fraction `α`. -/
def queryFirst (hit : Nat → Option K) (i : Nat) (out : Out K) : K × Out K :=
  let out := match hit i with
    | some α => if α < out.alpha then ⟨α, some i⟩ else out
    | none => out
  (out.alpha, out)

/-- `BBTree.SegmentQuery`: bb_tree.go:338-343. The returned fraction is discarded. -/
def segmentRoot {σ : Type} (inf : K) (p q : V2 K) (f : Nat → σ → K × σ) (t : Option (Tree K)) (tExit : K) (w : σ) : σ :=
  match t with
  | none => w
  | some t => (t.segmentQuery inf p q f tExit w).2

/-- `Space.SegmentQueryFirst`: space.go:978-984. -/
def segmentQueryFirst (inf : K) (s : State K) (p q : V2 K) (hit : Nat → Option K) : Out K :=
  let out := segmentRoot inf p q (queryFirst hit) s.stat 1 ⟨1, none⟩
  segmentRoot inf p q (queryFirst hit) s.dyn out.alpha out

/-- `segmentQuery`: space.go:1232-1241; the calls of the user's function are collected. -/
def querySeg (hit : Nat → Option K) (i : Nat) (out : List (Nat × K)) : K × List (Nat × K) :=
  (1, match hit i with
    | some α => out ++ [(i, α)]
    | none => out)

/-- `Space.SegmentQuery`: space.go:968-976. -/
def segmentQueryAll (inf : K) (s : State K) (p q : V2 K) (hit : Nat → Option K) : List (Nat × K) :=
  let out := segmentRoot inf p q (querySeg hit) s.stat 1 []
  segmentRoot inf p q (querySeg hit) s.dyn 1 out

end BBTree
end Cm
