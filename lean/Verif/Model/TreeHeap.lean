import Verif.Model.BBTree
import Verif.Model.HashSetHeap
/-!
# One bounding box tree with its nodes in memory: bb_tree.go

Nodes are numbered by their addresses; the fields of all nodes are kept in one function per field. `leaves` stands for the hash
set of leaves (C01, C94). Recursions and loops have as fuel the number of nodes ever made and one more: a walk that takes longer
has met a node twice and does not end (`none`). Using a nil pointer is `none` too. The pairs of the leaves are not here (C74).
-/
namespace Cm
namespace TreeHeap
open HashHeap (put)
open BBTree (Leaf)
variable {K : Type} [Zero K] [One K] [Add K] [Sub K] [Mul K] [Div K] [Neg K] [NatCast K] [LinearOrder K]

/-- bb_tree.go:62-77 and the fields of all nodes, 417-424 with 16-23. -/
structure TH (K : Type) where
  leaves : Nat → Option Nat
  root : Option Nat
  pooled : Option Nat
  obj : Nat → Option Nat
  bb : Nat → BB K
  parent : Nat → Option Nat
  a : Nat → Option Nat
  b : Nat → Option Nat
  stamp : Nat → Nat
  made : Nat

/-- bb_tree.go:79-85 -/
def new : TH K := ⟨fun _ => none, none, none, fun _ => none, fun _ => ⟨0, 0, 0, 0⟩, fun _ => none, fun _ => none, fun _ => none, fun _ => 0, 0⟩

/-- `RecycleNode`: bb_tree.go:404-407. -/
def recycle (h : TH K) (n : Nat) : TH K := { h with parent := put h.parent n h.pooled, pooled := some n }

/-- `&Node{}`: bb_tree.go:396, 399. -/
def alloc (h : TH K) : TH K :=
  { h with obj := put h.obj h.made none, bb := put h.bb h.made ⟨0, 0, 0, 0⟩, parent := put h.parent h.made none, a := put h.a h.made none,
           b := put h.b h.made none, stamp := put h.stamp h.made 0, made := h.made + 1 }

/-- The loop bb_tree.go:395-397. -/
def refill : Nat → TH K → TH K
  | 0, h => h
  | k + 1, h => refill k (recycle (alloc h) h.made)

/-- `NodeFromPool`: bb_tree.go:386-402. -/
def fromPool (h : TH K) : TH K × Nat :=
  match h.pooled with
  | some n => ({ h with pooled := h.parent n }, n)
  | none =>
    let h1 := refill HashHeap.pooledBufferSize h
    let h2 := alloc h1
    ({ h2 with parent := put h2.parent h1.made h2.pooled }, h1.made)

/-- `NodeSetA`: bb_tree.go:426-429. -/
def setA (h : TH K) (n v : Nat) : TH K := { h with a := put h.a n (some v), parent := put h.parent v (some n) }

/-- `NodeSetB`: bb_tree.go:431-434. -/
def setB (h : TH K) (n v : Nat) : TH K := { h with b := put h.b n (some v), parent := put h.parent v (some n) }

/-- `NewNode`: bb_tree.go:364-373. -/
def newNode (h : TH K) (x y : Nat) : TH K × Nat :=
  let g := fromPool h
  let n := g.2
  let h1 := g.1
  let h2 : TH K := { h1 with obj := put h1.obj n none, bb := put h1.bb n ((h1.bb x).merge (h1.bb y)), parent := put h1.parent n none }
  (setB (setA h2 n x) n y, n)

/-- `NewLeaf`: bb_tree.go:375-384; `box` is `GetBB(obj)` (345-362). -/
def newLeaf (h : TH K) (i : Nat) (box : BB K) : TH K × Nat :=
  let g := fromPool h
  let n := g.2
  let h1 := g.1
  ({ h1 with obj := put h1.obj n (some i), bb := put h1.bb n box, parent := put h1.parent n none, stamp := put h1.stamp n 0 }, n)

/-- The choice of bb_tree.go:199-207 on boxes. -/
def chooseB (ba bb lb : BB K) : Bool :=
  let costA := bb.area + ba.mergedArea lb
  let costB := ba.area + bb.mergedArea lb
  if costA = costB then decide (bb.proximity lb < ba.proximity lb) else decide (costB < costA)

/-- `SubtreeInsert` on a node: bb_tree.go:195-215. -/
def insertAt : Nat → TH K → Nat → Nat → Option (TH K × Nat)
  | 0, _, _, _ => none
  | k + 1, h, n, leaf =>
    if (h.obj n).isSome then some (newNode h leaf n)
    else match h.a n, h.b n with
      | some x, some y =>
        if chooseB (h.bb x) (h.bb y) (h.bb leaf) then
          match insertAt k h y leaf with
          | none => none
          | some r =>
            let h1 := setB r.1 n r.2
            some ({ h1 with bb := put h1.bb n ((h1.bb n).merge (h1.bb leaf)) }, n)
        else
          match insertAt k h x leaf with
          | none => none
          | some r =>
            let h1 := setA r.1 n r.2
            some ({ h1 with bb := put h1.bb n ((h1.bb n).merge (h1.bb leaf)) }, n)
      | _, _ => none

/-- `SubtreeInsert`: bb_tree.go:191-215. -/
def insertSub (h : TH K) (root : Option Nat) (leaf : Nat) : Option (TH K × Nat) :=
  match root with
  | none => some (h, leaf)
  | some n => insertAt (h.made + 1) h n leaf

/-- `Other`: bb_tree.go:482-487. -/
def other (h : TH K) (n c : Nat) : Option Nat := if h.a n = some c then h.b n else h.a n

/-- The loop bb_tree.go:243-245. -/
def refit : Nat → TH K → Option Nat → Option (TH K)
  | 0, _, _ => none
  | _ + 1, h, none => some h
  | k + 1, h, some n => match h.a n, h.b n with
    | some x, some y => let h1 : TH K := { h with bb := put h.bb n ((h.bb x).merge (h.bb y)) }; refit k h1 (h1.parent n)
    | _, _ => none

/-- `ReplaceChild`: bb_tree.go:234-246. When `child` is not the first child the second one is recycled, whatever it is. -/
def replaceChild (h : TH K) (parent child value : Nat) : Option (TH K) :=
  if h.a parent = some child then
    refit (h.made + 1) (setA (recycle h child) parent value) (some parent)
  else match h.b parent with
    | none => none
    | some y => refit (h.made + 1) (setB (recycle h y) parent value) (some parent)

/-- `SubtreeRemove`: bb_tree.go:217-232. `root` is nil only when the leaf is nil too or the leaf is not in the tree: using it is `none`. -/
def removeSub (h : TH K) (root : Option Nat) (leaf : Nat) : Option (TH K × Option Nat) :=
  if root = some leaf then some (h, none)
  else match root with
    | none => none
    | some r => match h.parent leaf with
      | none => none
      | some p =>
        if p = r then
          match other h r leaf with
          | none => none
          | some o => some (recycle { h with parent := put h.parent o (h.parent r) } r, some o)
        else match h.parent p, other h p leaf with
          | some g, some o => (replaceChild h g p o).map fun h' => (h', some r)
          | _, _ => none

/-- `Insert`: bb_tree.go:101-109; `box` is `GetBB(obj)`, `stamp` that of the master tree. A shape that is there already is linked in once more. -/
def insert (h : TH K) (i : Nat) (box : BB K) (stamp : Nat) : Option (TH K) :=
  let g : TH K × Nat := match h.leaves i with
    | some n => (h, n)
    | none => let g := newLeaf h i box; ({ g.1 with leaves := put g.1.leaves i (some g.2) }, g.2)
  match insertSub g.1 g.1.root g.2 with
  | none => none
  | some r => some { r.1 with root := some r.2, stamp := put r.1.stamp g.2 stamp }

/-- `Remove`: bb_tree.go:248-254. -/
def remove (h : TH K) (i : Nat) : Option (TH K) :=
  match h.leaves i with
  | none => none
  | some n =>
    let h1 : TH K := { h with leaves := put h.leaves i none }
    match removeSub h1 h1.root n with
    | none => none
    | some r => some (recycle { r.1 with root := r.2 } n)

/-- `LeafUpdate`: bb_tree.go:296-312; `cur` is `bbfunc(obj)`, `box` is `GetBB(obj)`. For an absent shape nothing happens (262, 278). -/
def update (h : TH K) (i : Nat) (cur box : BB K) (stamp : Nat) : Option (TH K) :=
  match h.leaves i with
  | none => some h
  | some n =>
    if (h.bb n).contains cur then some h
    else
      let h1 : TH K := { h with bb := put h.bb n box }
      match removeSub h1 h1.root n with
      | none => none
      | some r => match insertSub r.1 r.2 n with
        | none => none
        | some q => some { q.1 with root := some q.2, stamp := put q.1.stamp n stamp }

/-- The loop bb_tree.go:444-450 from `n`: the siblings met, `true` when the sibling is the `b` child. -/
def climb (h : TH K) : Nat → Nat → Option (List (Bool × Nat))
  | 0, _ => none
  | k + 1, n => match h.parent n with
    | none => some []
    | some p =>
      if h.a p = some n then
        match h.b p with
        | none => none
        | some y => (climb h k p).map ((true, y) :: ·)
      else
        match h.a p with
        | none => none
        | some x => (climb h k p).map ((false, x) :: ·)

/-- `SubtreeQuery`: bb_tree.go:493-502. -/
def query (h : TH K) (q : BB K) : Nat → Nat → Option (List Nat)
  | 0, _ => none
  | k + 1, n =>
    if (h.bb n).intersects q then
      match h.obj n with
      | some i => some [i]
      | none => match h.a n, h.b n with
        | some x, some y => match query h q k x, query h q k y with
          | some l, some m => some (l ++ m)
          | _, _ => none
        | _, _ => none
    else some []

/-- Calls changing one tree, with the boxes and the stamp of the moment. -/
inductive Op (K : Type) where
  | insert (i : Nat) (box : BB K) (stamp : Nat)
  | remove (i : Nat)
  | update (i : Nat) (cur box : BB K) (stamp : Nat)

/-- bb_tree.go:101, 248, 296 -/
def step (h : TH K) : Op K → Option (TH K)
  | .insert i box stamp => insert h i box stamp
  | .remove i => remove h i
  | .update i cur box stamp => update h i cur box stamp

/-- A history of calls. -/
def run : TH K → List (Op K) → Option (TH K)
  | h, [] => some h
  | h, op :: ops => match step h op with
    | none => none
    | some h' => run h' ops

/-- The same calls on the tree of `Model/BBTree.lean`: the tree part of `insertDyn`, `removeDyn` and `leafUpdateDyn` and of their
static twins. `none` outside is a crash or a refused insertion, `none` inside the empty tree. -/
def fstep (t : Option (BBTree.Tree K)) : Op K → Option (Option (BBTree.Tree K))
  | .insert i box stamp => if (BBTree.leavesOf t).any (fun l => l.id == i) then none else some (some (BBTree.insertRoot ⟨i, box, stamp⟩ t))
  | .remove i => match t with
    | none => none
    | some t => if t.has i then some (t.remove i) else none
  | .update i cur box stamp => match t with
    | none => some none
    | some t => match t.find? i with
      | none => some (some t)
      | some old => if old.bb.contains cur then some (some t) else some (some (BBTree.insertRoot ⟨i, box, stamp⟩ (t.remove i)))

def frun : Option (BBTree.Tree K) → List (Op K) → Option (Option (BBTree.Tree K))
  | t, [] => some t
  | t, op :: ops => match fstep t op with
    | none => none
    | some t' => frun t' ops

end TreeHeap
end Cm
