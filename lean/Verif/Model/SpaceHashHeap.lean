import Verif.Model.SpaceHashRay
import Verif.Model.HashSetHeap
/-!
# The spatial hash with its bins in memory: space_hash.go

Bins are numbered by their addresses; the fields of all bins are kept in one function per field. Loops along `next` pointers have
as fuel the number of bins ever made and one more: a walk that takes longer has met a bin twice and does not end (`none`). Using the
handle of a bin that has none is a nil dereference (`none`). The handle set and the pool of handles are as in `Model/SpaceHash.lean`
(the bins of the handle set are in `Model/HashSetHeap.lean`). Callbacks do not use the index.
-/

namespace Cm
namespace BinHeap
open Hash (Hand St isObj hashFunc Walk bound)
open HashHeap (put pooledBufferSize)

/-- space_hash.go:10-23, with the fields of the bins (space_hash.go:321-324) and of the handles (space_hash.go:340-344). -/
structure Mem where
  n : Nat
  hd : Nat → Hand
  set : List Nat
  pool : List Nat
  now : Nat
  table : Nat → Option Nat
  pooled : Option Nat
  handle : Nat → Option Nat
  next : Nat → Option Nat
  made : Nat

/-- `NewSpaceHash`: space_hash.go:25-42. -/
def new (n : Nat) : Mem := ⟨n, fun _ => ⟨none, 0, 0⟩, [], [], 1, fun _ => none, none, fun _ => none, fun _ => none, 0⟩

/-- Assignment to a handle. -/
def setH (b : Mem) (h : Nat) (f : Hand → Hand) : Mem := { b with hd := fun g => if g = h then f (b.hd g) else b.hd g }

/-- `Handle.retain`: space_hash.go:352-354. -/
def retain (b : Mem) (h : Nat) : Mem := setH b h fun d => { d with ret := d.ret + 1 }

/-- `Handle.release`: space_hash.go:356-361. -/
def release (b : Mem) (h : Nat) : Mem :=
  let b1 := setH b h fun d => { d with ret := d.ret - 1 }
  if (b1.hd h).ret = 0 then { b1 with pool := h :: b1.pool } else b1

/-- `recycleBin`: space_hash.go:363-366. -/
def recycleBin (b : Mem) (a : Nat) : Mem := { b with next := put b.next a b.pooled, pooled := some a }

/-- `&SpaceHashBin{}`: space_hash.go:398, 400. -/
def alloc (b : Mem) : Mem := { b with handle := put b.handle b.made none, next := put b.next b.made none, made := b.made + 1 }

/-- The loop space_hash.go:397-399. -/
def refill : Nat → Mem → Mem
  | 0, b => b
  | k + 1, b => refill k (recycleBin (alloc b) b.made)

/-- `getEmptyBin`: space_hash.go:388-401. -/
def getEmptyBin (b : Mem) : Mem × Nat :=
  match b.pooled with
  | some a => ({ b with pooled := b.next a }, a)
  | none => let b1 := refill pooledBufferSize b; (alloc b1, b1.made)

/-- `containsHandle`: space_hash.go:326-334. -/
def containsHandle (b : Mem) (h : Nat) : Nat → Option Nat → Option Bool
  | 0, _ => none
  | _ + 1, none => some false
  | k + 1, some a => if b.handle a = some h then some true else containsHandle b h k (b.next a)

/-- Putting an empty bin for `h` before the chain `bin`, into cell `i`: space_hash.go:64-67, 194-197. -/
def pushBin (b : Mem) (h i : Nat) (bin : Option Nat) : Mem :=
  let g := getEmptyBin b
  { g.1 with handle := put g.1.handle g.2 (some h), next := put g.1.next g.2 bin, table := put g.1.table i (some g.2) }

/-- One turn of the loop of `hashHandle`: space_hash.go:56-67. -/
def addAt (b : Mem) (h i : Nat) : Option Mem :=
  match containsHandle b h (b.made + 1) (b.table i) with
  | none => none
  | some true => some b
  | some false => some (pushBin (retain b h) h i (b.table i))

/-- `hashHandle`: space_hash.go:44-70. -/
def hashHandle (h : Nat) : List Nat → Mem → Option Mem
  | [], b => some b
  | i :: l, b => match addAt b h i with
    | none => none
    | some b1 => hashHandle h l b1

/-- The search of the handle set, by the equality space_hash.go:30-32. -/
def find (b : Mem) (x : Nat) : Option Nat := b.set.find? fun h => decide ((b.hd h).obj = some x)

/-- `Insert`: space_hash.go:86-94; `h` is what the pool of handles returns; `Init` (space_hash.go:346-350) and `retain` give its fields. -/
def insert (b : Mem) (x h : Nat) (l : List Nat) : Option Mem :=
  match find b x with
  | some g => hashHandle g l b
  | none => hashHandle h l { setH b h (fun _ => ⟨some x, 1, 0⟩) with pool := b.pool.erase h, set := h :: b.set }

/-- `Remove`: space_hash.go:96-103. -/
def remove (b : Mem) (x : Nat) : Mem :=
  match find b x with
  | none => b
  | some h => release (setH { b with set := b.set.erase h } h fun d => { d with obj := none }) h

/-- `ReindexObject`: space_hash.go:112-121. -/
def reindexObject (b : Mem) (x h : Nat) (l : List Nat) : Option Mem :=
  match find b x with
  | none => some b
  | some _ => insert (remove b x) x h l

/-- The loop of `removeOrphanedHandles`: space_hash.go:123-141. `binPtr` points to the `next` field of `prev` or, when `prev` is none, to the
variable with the head of the chain, whose value is `root`. -/
def removeOrphans : Nat → Option Nat → Option Nat → Option Nat → Mem → Option (Mem × Option Nat)
  | 0, _, _, _, _ => none
  | _ + 1, none, _, root, b => some (b, root)
  | k + 1, some a, prev, root, b => match b.handle a with
    | none => none
    | some h =>
      let next := b.next a
      if (b.hd h).obj = none then
        match prev with
        | none => removeOrphans k next none next (release (recycleBin b a) h)
        | some q => removeOrphans k next (some q) root (release (recycleBin { b with next := put b.next q next } a) h)
      else removeOrphans k next (some a) root b

/-- One pass of the loop space_hash.go:145-158 until its end or an orphan. -/
def scan (obj : Option Nat) : Nat → Option Nat → Mem → Option (Mem × List Nat × Bool)
  | 0, _, _ => none
  | _ + 1, none, b => some (b, [], false)
  | k + 1, some a, b => match b.handle a with
    | none => none
    | some h =>
      if (b.hd h).stamp = b.now ∨ isObj obj (b.hd h) = true then scan obj k (b.next a) b
      else match (b.hd h).obj with
        | some y => (scan obj k (b.next a) (setH b h fun d => { d with stamp := b.now })).map fun r => (r.1, y :: r.2.1, r.2.2)
        | none => some (b, [], true)

/-- `queryHelper`: space_hash.go:143-159, on the chain from `root`: the head of the chain afterwards and the shapes reported. -/
def queryHelper (obj : Option Nat) : Nat → Option Nat → Mem → Option (Mem × Option Nat × List Nat)
  | 0, _, _ => none
  | k + 1, root, b => match scan obj (b.made + 1) root b with
    | none => none
    | some (b1, out, false) => some (b1, root, out)
    | some (b1, out, true) => match removeOrphans (b1.made + 1) root none root b1 with
      | none => none
      | some r => (queryHelper obj k r.2 r.1).map fun q => (q.1, q.2.1, out ++ q.2.2)

/-- `queryHelper(&hash.table[i], …)`: space_hash.go:218, 302. -/
def queryCell (obj : Option Nat) (i : Nat) (b : Mem) : Option (Mem × List Nat) :=
  match queryHelper obj (b.made + 1) (b.table i) b with
  | none => none
  | some r => some ({ r.1 with table := put r.1.table i r.2.1 }, r.2.2)

/-- The loop of `Query` over the cells: space_hash.go:216-220. -/
def queryCells (obj : Option Nat) : List Nat → Mem → Option (Mem × List Nat)
  | [], b => some (b, [])
  | i :: l, b => match queryCell obj i b with
    | none => none
    | some r => match queryCells obj l r.1 with
      | none => none
      | some q => some (q.1, r.2 ++ q.2)

/-- `Query`: space_hash.go:207-223. -/
def query (b : Mem) (obj : Option Nat) (l : List Nat) : Option (Mem × List Nat) :=
  match queryCells obj l b with
  | none => none
  | some r => some ({ r.1 with now := r.1.now + 1 }, r.2)

/-- The loop of `clearTableCell`: space_hash.go:370-377. -/
def clearChain : Nat → Option Nat → Mem → Option Mem
  | 0, _, _ => none
  | _ + 1, none, b => some b
  | k + 1, some a, b => match b.handle a with
    | none => none
    | some h => clearChain k (b.next a) (recycleBin (release b h) a)

/-- `clearTableCell`: space_hash.go:368-380. -/
def clearCell (b : Mem) (i : Nat) : Option Mem := (clearChain (b.made + 1) (b.table i) b).map fun b1 => { b1 with table := put b1.table i none }

/-- `clearTable`: space_hash.go:382-386, for a list of cells. -/
def clearCells : List Nat → Mem → Option Mem
  | [], b => some b
  | i :: l, b => match clearCell b i with
    | none => none
    | some b1 => clearCells l b1

/-- `clearTable`: space_hash.go:382-386. -/
def clearTable (b : Mem) : Option Mem := clearCells (List.range b.n) b

/-- The loop of `ReindexQuery` over the cells of one handle: space_hash.go:182-199. `queryHelper` gets the address of the local variable. -/
def rehashCells (h : Nat) : List Nat → Mem → Option (Mem × List Nat)
  | [], b => some (b, [])
  | i :: l, b => match containsHandle b h (b.made + 1) (b.table i) with
    | none => none
    | some true => rehashCells h l b
    | some false =>
      let b1 := retain b h
      match queryHelper (b1.hd h).obj (b1.made + 1) (b.table i) b1 with
      | none => none
      | some r => match rehashCells h l (pushBin r.1 h i r.2.1) with
        | none => none
        | some q => some (q.1, r.2.2 ++ q.2)

/-- The loop of `ReindexQuery` over the handles: space_hash.go:172-202. -/
def rehashAll (cells : Nat → List Nat) : List Nat → Mem → Option (Mem × List (Nat × Nat))
  | [], b => some (b, [])
  | h :: l, b => match (b.hd h).obj with
    | none => none
    | some x => match rehashCells h (cells x) b with
      | none => none
      | some r => match rehashAll cells l { r.1 with now := r.1.now + 1 } with
        | none => none
        | some q => some (q.1, r.2.map (fun y => (x, y)) ++ q.2)

/-- `ReindexQuery` up to `CollideStatic`: space_hash.go:169-202. -/
def reindexQuery (b : Mem) (cells : Nat → List Nat) (order : List Nat) : Option (Mem × List (Nat × Nat)) :=
  match clearTable b with
  | none => none
  | some b1 => rehashAll cells order b1

section
variable {K : Type} [Field K] [LinearOrder K] [FloorRing K]

/-- The loop of `SegmentQuery`: space_hash.go:300-313. `segmentQueryHelper` (space_hash.go:225-245) goes through the cell as `queryHelper` does
for an object that is no shape. -/
def rayLoop (f : Nat → K) : Nat → K → Walk K → Mem → Option (Mem × List Nat × K)
  | 0, _, _, _ => none
  | k + 1, tExit, w, b =>
    if w.t < tExit then
      match queryCell none (hashFunc w.cx w.cy b.n) b with
      | none => none
      | some r => match rayLoop f k (min tExit (bound f r.2)) w.next r.1 with
        | none => none
        | some q => some (q.1, r.2 ++ q.2.1, q.2.2)
    else some (b, [], tExit)

/-- `SegmentQuery`: space_hash.go:248-316. -/
def segmentQuery (dim inf : K) (b : Mem) (p q : V2 K) (tExit : K) (f : Nat → K) (fuel : Nat) : Option (Mem × List Nat × K) :=
  match rayLoop f fuel tExit (Walk.start inf (p.scale (1 / dim)) (q.scale (1 / dim))) b with
  | none => none
  | some r => some ({ r.1 with now := r.1.now + 1 }, r.2.1, r.2.2)
end

end BinHeap
end Cm
