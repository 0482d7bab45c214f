/-!
# Intrusive lists threaded through two owners

Three pointer structures of the code have the same shape: a node belongs to two owners `A` and `B`, and carries for
each of them the links of that owner's list of nodes.

* contacts (`Arbiter`) in the lists of their two bodies, doubly linked: arbiter.go:19-21, 58-103, body.go:458-465;
* cached pairs (`Pair`) in the lists of their two leaves, doubly linked: bb_tree.go:20-56, 139-189, 313-330;
* joints (`Constraint`) in the lists of their two bodies, singly linked: constraint.go:17-31, 97-103,
  space.go:365-398, body.go:541-543, 600-618.

The heap is modelled field by field: one function from nodes (pointers) per field, and `none` for nil.
-/
namespace Cm
namespace Threads
variable {N B : Type} [DecidableEq N] [DecidableEq B]

/-- Assignment of a field of one node. -/
def upd {α β : Type} [DecidableEq α] (f : α → β) (a : α) (v : β) : α → β := fun x => if x = a then v else f x

/-- The fields of all nodes and the list heads of all owners: arbiter.go:19-21, 58-60 with body.go:51;
bb_tree.go:20-33; constraint.go:21-22 with body.go:52 (there the `prev` fields do not exist). -/
structure Heap (N B : Type) where
  endA : N → B
  endB : N → B
  nextA : N → Option N
  prevA : N → Option N
  nextB : N → Option N
  prevB : N → Option N
  head : B → Option N

/-- `Arbiter.Next` arbiter.go:62-68, `Constraint.Next` constraint.go:97-103, and `ThreadForBody(body).next`
arbiter.go:97-103. -/
def Heap.next (h : Heap N B) (b : B) (n : N) : Option N := if h.endA n = b then h.nextA n else h.nextB n

/-- `ThreadForBody(body).prev`: arbiter.go:97-103. -/
def Heap.prev (h : Heap N B) (b : B) (n : N) : Option N := if h.endA n = b then h.prevA n else h.prevB n

/-- Assignment to `ThreadForBody(body).next`; in bb_tree.go:48-52 written out. -/
def Heap.setNext (h : Heap N B) (b : B) (n : N) (v : Option N) : Heap N B :=
  if h.endA n = b then { h with nextA := upd h.nextA n v } else { h with nextB := upd h.nextB n v }

/-- Assignment to `ThreadForBody(body).prev`; in bb_tree.go:40-44, 151-155, 159-163 written out. -/
def Heap.setPrev (h : Heap N B) (b : B) (n : N) (v : Option N) : Heap N B :=
  if h.endA n = b then { h with prevA := upd h.prevA n v } else { h with prevB := upd h.prevB n v }

/-- Assignment to the list head of an owner. -/
def Heap.setHead (h : Heap N B) (b : B) (v : Option N) : Heap N B := { h with head := upd h.head b v }

/-- The loop of every traversal, for example body.go:579-589, 601-606, bb_tree.go:452-466: the nodes visited from `p`
on. The Go loop is unbounded; here it stops after `fuel` nodes, and `none` means that it had not ended by then. -/
def Heap.walk (h : Heap N B) (b : B) : Nat → Option N → Option (List N)
  | _, none => some []
  | 0, some _ => none
  | fuel + 1, some n => (h.walk b fuel (h.next b n)).map (n :: ·)

/-! ## Contacts -/

/-- `PushArbiter`: body.go:458-465. -/
def Heap.push (h : Heap N B) (b : B) (n : N) : Heap N B :=
  let next := h.head b
  let h1 := h.setNext b n next
  let h2 := match next with
    | some m => h1.setPrev b m (some n)
    | none => h1
  h2.setHead b (some n)

/-- `unthreadHelper`: arbiter.go:75-95. -/
def Heap.unthreadOne (h : Heap N B) (b : B) (n : N) : Heap N B :=
  let prev := h.prev b n
  let next := h.next b n
  let h1 := match prev with
    | some q => h.setNext b q next
    | none => if h.head b = some n then h.setHead b next else h
  let h2 := match next with
    | some m => h1.setPrev b m prev
    | none => h1
  (h2.setNext b n none).setPrev b n none

/-- `Unthread`: arbiter.go:70-73. -/
def Heap.unthread (h : Heap N B) (n : N) : Heap N B :=
  (h.unthreadOne (h.endA n) n).unthreadOne (h.endB n) n

/-- The two pushes of space.go:494-495, after `bodyA`, `bodyB` were set (arbiter.go:45-47 or 190-195). -/
def Heap.attach (h : Heap N B) (n : N) (a b : B) : Heap N B :=
  (({ h with endA := upd h.endA n a, endB := upd h.endB n b } : Heap N B).push a n).push b n

/-! ## Cached pairs -/

/-- `Thread.Unlink` of the thread of pair `n` at leaf `b`: bb_tree.go:35-56. -/
def Heap.unlink (h : Heap N B) (b : B) (n : N) : Heap N B :=
  let next := h.next b n
  let prev := h.prev b n
  let h1 := match next with
    | some m => h.setPrev b m prev
    | none => h
  match prev with
  | some q => h1.setNext b q next
  | none => h1.setHead b next

/-- The heap of pairs with the pool of unused ones, linked by `a.next`: bb_tree.go:73-75. -/
structure PairHeap (N B : Type) extends Heap N B where
  pool : Option N

/-- `RecyclePair`: bb_tree.go:185-189. -/
def PairHeap.recycle (h : PairHeap N B) (n : N) : PairHeap N B :=
  { h with nextA := upd h.nextA n h.pool, pool := some n }

/-- `PairFromPool`: bb_tree.go:167-183. `fresh` are the pairs allocated when the pool is empty: the one returned and
the `pooledBufferSize` that go to the pool. -/
def PairHeap.fromPool (h : PairHeap N B) (fresh : N × List N) : PairHeap N B × N :=
  match h.pool with
  | some n => ({ h with pool := h.nextA n }, n)
  | none => (fresh.2.foldl PairHeap.recycle h, fresh.1)

/-- `PairInsert`: bb_tree.go:139-165. The heads are read before the pool is touched, which makes no difference. -/
def PairHeap.insert (h : PairHeap N B) (a b : B) (fresh : N × List N) : PairHeap N B :=
  let headA := h.head a
  let headB := h.head b
  let hp := h.fromPool fresh
  let n := hp.2
  let h1 : Heap N B :=
    { hp.1.toHeap with
      endA := upd hp.1.endA n a, endB := upd hp.1.endB n b
      nextA := upd hp.1.nextA n headA, prevA := upd hp.1.prevA n none
      nextB := upd hp.1.nextB n headB, prevB := upd hp.1.prevB n none }
  let h2 := (h1.setHead a (some n)).setHead b (some n)
  let h3 := match headA with
    | some m => h2.setPrev a m (some n)
    | none => h2
  let h4 := match headB with
    | some m => h3.setPrev b m (some n)
    | none => h3
  { toHeap := h4, pool := hp.1.pool }

/-- The loop of `PairsClear`: bb_tree.go:317-329; `fuel` as in `walk`. -/
def PairHeap.clearLoop (leaf : B) : Nat → Option N → PairHeap N B → Option (PairHeap N B)
  | _, none, h => some h
  | 0, some _, _ => none
  | fuel + 1, some n, h =>
    if h.endA n = leaf then
      let next := h.nextA n
      clearLoop leaf fuel next (PairHeap.recycle { h with toHeap := h.toHeap.unlink (h.endB n) n } n)
    else
      let next := h.nextB n
      clearLoop leaf fuel next (PairHeap.recycle { h with toHeap := h.toHeap.unlink (h.endA n) n } n)

/-- `PairsClear`: bb_tree.go:313-330. -/
def PairHeap.clear (h : PairHeap N B) (leaf : B) (fuel : Nat) : Option (PairHeap N B) :=
  PairHeap.clearLoop leaf fuel (h.head leaf) { h with toHeap := h.toHeap.setHead leaf none }

/-! ## Joints -/

/-- The list part of `AddConstraint`: space.go:373-378. `bodyA` and `bodyB` are fixed at construction
(constraint.go:33-37); here they are written at this point. -/
def Heap.addJoint (h : Heap N B) (n : N) (a b : B) : Heap N B :=
  let h0 : Heap N B := { h with endA := upd h.endA n a, endB := upd h.endB n b }
  let h1 : Heap N B := { h0 with nextA := upd h0.nextA n (h0.head a) }
  let h2 := h1.setHead a (some n)
  let h3 : Heap N B := { h2 with nextB := upd h2.nextB n (h2.head b) }
  h3.setHead b (some n)

/-- `filterConstraints`: body.go:609-618; `none` is the nil dereference of line 612 (`node` nil) or running out of
fuel. -/
def Heap.filterList (b : B) (x : N) : Nat → Option N → Heap N B → Option (Heap N B × Option N)
  | 0, _, _ => none
  | fuel + 1, node, h =>
    if node = some x then some (h, h.next b x)
    else match node with
      | none => none
      | some n =>
        if h.endA n = b then
          match Heap.filterList b x fuel (h.nextA n) h with
          | none => none
          | some (h', r) => some ({ h' with nextA := upd h'.nextA n r }, some n)
        else
          match Heap.filterList b x fuel (h.nextB n) h with
          | none => none
          | some (h', r) => some ({ h' with nextB := upd h'.nextB n r }, some n)

/-- `Body.RemoveConstraint`: body.go:541-543. -/
def Heap.removeFrom (h : Heap N B) (b : B) (x : N) (fuel : Nat) : Option (Heap N B) :=
  match Heap.filterList b x fuel (h.head b) h with
  | none => none
  | some (h', r) => some (h'.setHead b r)

/-- The list part of `Space.RemoveConstraint`: space.go:395-396. -/
def Heap.removeJoint (h : Heap N B) (x : N) (fuel : Nat) : Option (Heap N B) :=
  match h.removeFrom (h.endA x) x fuel with
  | none => none
  | some h' => h'.removeFrom (h'.endB x) x fuel

/-- `QueryRejectConstraints`: space.go:1149-1158, over the nodes of `a`'s list. -/
def Heap.rejects (h : Heap N B) (collide : N → Bool) (a b : B) (visited : List N) : Bool :=
  visited.any fun c => !collide c && ((h.endA c = a && h.endB c = b) || (h.endA c = b && h.endB c = a))

end Threads
end Cm
