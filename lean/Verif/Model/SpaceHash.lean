import Verif.Model.Vec

/-!
# The spatial hash: space_hash.go

Handles are numbered. A cell's chain of bins is the list of the handles in them, front first; bins come from a free list
and are overwritten when taken (space_hash.go:64-67, 194-197), so they are not modelled. The handle set is the list of its
elements (its table is `Model/HashSet.lean`). A handle taken from the pool is an input of the operation, as `sync.Pool` may
return any of those put into it or a new one. The cells of a box are computed by `cells`; what follows works with lists of
them. Callbacks do not use the index; what happens when they do is shown in `Props/SpaceHash.lean`.
-/

namespace Cm
namespace Hash

/-- space_hash.go:340-344 -/
structure Hand where
  obj : Option Nat
  ret : Int
  stamp : Nat
deriving DecidableEq, Repr

/-- space_hash.go:10-23 -/
structure St where
  n : Nat
  hd : Nat → Hand
  table : Nat → List Nat
  set : List Nat
  pool : List Nat
  now : Nat

/-- `NewSpaceHash`: space_hash.go:25-42. The pool is filled with new handles, which is as good as empty. -/
def empty (n : Nat) : St := ⟨n, fun _ => ⟨none, 0, 0⟩, fun _ => [], [], [], 1⟩

/-- Assignment to a handle. -/
def St.setH (s : St) (h : Nat) (f : Hand → Hand) : St := { s with hd := fun g => if g = h then f (s.hd g) else s.hd g }

/-- Assignment to a cell. -/
def St.setT (s : St) (i : Nat) (l : List Nat) : St := { s with table := fun j => if j = i then l else s.table j }

/-- `Handle.retain`: space_hash.go:352-354. -/
def retain (s : St) (h : Nat) : St := s.setH h fun d => { d with ret := d.ret + 1 }

/-- `Handle.release`: space_hash.go:356-361. -/
def release (s : St) (h : Nat) : St :=
  let s1 := s.setH h fun d => { d with ret := d.ret - 1 }
  if (s1.hd h).ret = 0 then { s1 with pool := h :: s1.pool } else s1

/-- Taking the bin of `h` out of cell `i` and releasing the handle: space_hash.go:131-134, 371-375. -/
def dropAt (s : St) (i h : Nat) : St := release (s.setT i ((s.table i).erase h)) h

/-- One turn of the loop of `hashHandle` for cell `i`: space_hash.go:56-67. -/
def addAt (s : St) (h i : Nat) : St :=
  if h ∈ s.table i then s else (retain s h).setT i (h :: s.table i)

/-- `hashHandle`: space_hash.go:44-70. -/
def hashHandle (s : St) (h : Nat) (l : List Nat) : St := l.foldl (fun s i => addAt s h i) s

/-- `handleSet.Find` and the search in `Insert` and `Remove`, by the equality space_hash.go:30-32. -/
def find (s : St) (x : Nat) : Option Nat := s.set.find? fun h => decide ((s.hd h).obj = some x)

/-- `Insert`: space_hash.go:86-94; `h` is what the pool returns. -/
def insert (s : St) (x h : Nat) (l : List Nat) : St :=
  match find s x with
  | some g => hashHandle s g l
  | none => hashHandle { s.setH h (fun _ => ⟨some x, 1, 0⟩) with pool := s.pool.erase h, set := h :: s.set } h l

/-- `Remove`: space_hash.go:96-103. -/
def remove (s : St) (x : Nat) : St :=
  match find s x with
  | none => s
  | some h => release ({ s with set := s.set.erase h }.setH h fun d => { d with obj := none }) h

/-- `ReindexObject`: space_hash.go:112-121. -/
def reindexObject (s : St) (x h : Nat) (l : List Nat) : St :=
  match find s x with
  | none => s
  | some _ => insert (remove s x) x h l

/-- The loop of `removeOrphanedHandles`: space_hash.go:123-141. -/
def removeOrphans (i : Nat) : List Nat → St → St
  | [], s => s
  | h :: l, s => removeOrphans i l (if (s.hd h).obj = none then dropAt s i h else s)

/-- The comparison `obj == other` space_hash.go:149; `none` is something that is no shape. -/
def isObj (obj : Option Nat) (d : Hand) : Bool := match obj with
  | none => false
  | some x => decide (d.obj = some x)

/-- One pass of the loop space_hash.go:145-158 until its end or an orphan: the state, the shapes reported, and whether an
orphan was met. -/
def scan (obj : Option Nat) : List Nat → St → St × List Nat × Bool
  | [], s => (s, [], false)
  | h :: l, s =>
    if (s.hd h).stamp = s.now ∨ isObj obj (s.hd h) = true then scan obj l s
    else match (s.hd h).obj with
      | some y =>
        let r := scan obj l (s.setH h fun d => { d with stamp := s.now })
        (r.1, y :: r.2.1, r.2.2)
      | none => (s, [], true)

/-- `queryHelper`: space_hash.go:143-159. The fuel is the number of restarts, see `queryCell_ok`. -/
def queryCell (obj : Option Nat) (i : Nat) : Nat → St → Option (St × List Nat)
  | 0, _ => none
  | n + 1, s =>
    match scan obj (s.table i) s with
    | (s1, out, false) => some (s1, out)
    | (s1, out, true) => match queryCell obj i n (removeOrphans i (s1.table i) s1) with
      | none => none
      | some r => some (r.1, out ++ r.2)

/-- The loop of `Query` over the cells: space_hash.go:216-220. -/
def queryCells (obj : Option Nat) : List Nat → St → Option (St × List Nat)
  | [], s => some (s, [])
  | i :: l, s => match queryCell obj i ((s.table i).length + 1) s with
    | none => none
    | some r => match queryCells obj l r.1 with
      | none => none
      | some q => some (q.1, r.2 ++ q.2)

/-- `Query`: space_hash.go:207-223. -/
def query (s : St) (obj : Option Nat) (l : List Nat) : Option (St × List Nat) :=
  match queryCells obj l s with
  | none => none
  | some r => some ({ r.1 with now := r.1.now + 1 }, r.2)

/-- `clearTableCell`: space_hash.go:368-380. -/
def clearCell (s : St) (i : Nat) : St := (s.table i).foldl (fun s h => dropAt s i h) s

/-- `clearTable`: space_hash.go:382-386. -/
def clearTable (s : St) : St := (List.range s.n).foldl clearCell s

/-- `Reindex`: space_hash.go:105-110. The boxes computed are not used. -/
def reindex (s : St) : St := clearTable s

/-- The loop of `ReindexQuery` over the cells of one handle: space_hash.go:182-199. -/
def rehashCells (h : Nat) : List Nat → St → Option (St × List Nat)
  | [], s => some (s, [])
  | i :: l, s =>
    if h ∈ s.table i then rehashCells h l s
    else
      let s1 := retain s h
      match queryCell (s1.hd h).obj i ((s1.table i).length + 1) s1 with
      | none => none
      | some r => match rehashCells h l (r.1.setT i (h :: r.1.table i)) with
        | none => none
        | some q => some (q.1, r.2 ++ q.2)

/-- The loop of `ReindexQuery` over the handles: space_hash.go:172-202; `cells x` are the cells of shape `x` now. A handle
without shape would be a nil dereference in `bbfunc`. -/
def rehashAll (cells : Nat → List Nat) : List Nat → St → Option (St × List (Nat × Nat))
  | [], s => some (s, [])
  | h :: l, s => match (s.hd h).obj with
    | none => none
    | some x => match rehashCells h (cells x) s with
      | none => none
      | some r => match rehashAll cells l { r.1 with now := r.1.now + 1 } with
        | none => none
        | some q => some (q.1, r.2.map (fun y => (x, y)) ++ q.2)

/-- `ReindexQuery` up to `CollideStatic`: space_hash.go:169-202; `order` is the order in which the handle set is walked. -/
def reindexQuery (s : St) (cells : Nat → List Nat) (order : List Nat) : Option (St × List (Nat × Nat)) :=
  rehashAll cells order (clearTable s)

/-- `CollideStatic`: space_hash.go:204, spatial_index.go:95-101; `xs` are the shapes of the dynamic index in the order
walked, `st` is the static index. -/
def collideStatic (cells : Nat → List Nat) : List Nat → St → Option (St × List (Nat × Nat))
  | [], st => some (st, [])
  | x :: l, st => match query st (some x) (cells x) with
    | none => none
    | some r => match collideStatic cells l r.1 with
      | none => none
      | some q => some (q.1, r.2.map (fun y => (x, y)) ++ q.2)

/-- `Each`: space_hash.go:76-80, in the order the handle set is walked. -/
def each (s : St) : List Nat := s.set.filterMap fun h => (s.hd h).obj

/-- `Count`: space_hash.go:72-74. -/
def count (s : St) : Nat := s.set.length

/-- Making one of the indexes of `UseSpatialHash`: space.go:805-813; the shapes in the order the old index lists them, each
with the handle the pool returns. -/
def rebuild (n : Nat) (cells : Nat → List Nat) (xs : List (Nat × Nat)) : St :=
  xs.foldl (fun s p => insert s p.1 p.2 (cells p.1)) (empty n)

/-! ### Cells of a box -/

/-- `hashFunc`: space_hash.go:336-338, with the conversions to 64-bit words. -/
def hashFunc (i j : Int) (n : Nat) : Nat :=
  (BitVec.ofInt 64 i * 1640531513#64 ^^^ BitVec.ofInt 64 j * 2654435789#64).toNat % n

section
variable {K : Type} [Field K] [LinearOrder K] [FloorRing K]

/-- Go's conversion of a float to an integer: it drops the fraction. -/
def trunc (f : K) : Int := if f < 0 then -⌊-f⌋ else ⌊f⌋

/-- `floor`: space_hash.go:161-167. -/
def goFloor (f : K) : Int :=
  let i := trunc f
  if f < 0 ∧ (i : K) ≠ f then i - 1 else i

/-- `for i := a; i <= b; i++`. -/
def span (a b : Int) : List Int := (List.range (b - a + 1).toNat).map fun k : Nat => a + (k : Int)

/-- The cells visited for a box: space_hash.go:48-56, 177-184, 208-218. -/
def cells (dim : K) (n : Nat) (bb : BB K) : List Nat :=
  (span (goFloor (bb.L / dim)) (goFloor (bb.R / dim))).flatMap fun i =>
    (span (goFloor (bb.B / dim)) (goFloor (bb.T / dim))).map fun j => hashFunc i j n

end

end Hash
end Cm
