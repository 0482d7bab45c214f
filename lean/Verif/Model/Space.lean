import Verif.Model.Solver
/-!
# The bookkeeping of a space: space.go, body.go, hashset_arbiter.go

Which bodies, shapes, joints and collisions are in which list, what is asleep, and which callbacks are called. Numbers
that only matter for motion are left out; what they decide enters as input of a step (`StepIn`): which bodies move
faster than the idle threshold and which pairs of shapes are found touching. Objects are identified by numbers.

* The intrusive lists of collisions and joints of a body are lists here; `Props/Threads.lean` and `Props/JointLists.lean`
  show that the pointer structures behave like lists.
* The two spatial indexes are lists of shapes (`Props/BBTree.lean` shows that the trees hold what was put in), and so
  is the cache of collisions, looked up by unordered pair of shapes (`Props/HashSet.lean`).
* `none` is a panic, a fatal log message, or a loop that never ends.
* Post-step callbacks are in `Model/Lock.lean`.
-/
namespace Cm
namespace Sp

/-- `BodyType`: body.go:11-18. -/
inductive Kind where
  | dynamic | kinematic | static
deriving DecidableEq, Repr

/-- `Body`: body.go:28-58, the fields used here. The type of a body is a field here; in the code it is read off
`mass` and `sleepingIdleTime` (body.go:219-228). -/
@[ext] structure Bd (K : Type) where
  kind : Kind
  idle : K
  root : Option Nat
  next : Option Nat
  shapes : List Nat
  arbs : List Nat
  cons : List Nat
  space : Bool

/-- `Shape`: shape.go, the fields used here. -/
@[ext] structure Sh where
  body : Nat
  space : Bool
  sensor : Bool
deriving DecidableEq

/-- `Constraint`: constraint.go:17-31, the fields used here. -/
@[ext] structure Cn where
  a : Nat
  b : Nat
  space : Bool
deriving DecidableEq

/-- `Arbiter`: arbiter.go:16-31, the fields used here. -/
@[ext] structure Ar where
  sa : Nat
  sb : Nat
  a : Nat
  b : Nat
  state : ArbState
  stamp : Nat
  count : Nat
deriving DecidableEq

/-- Calls of user callbacks, with the shapes in the order of the collision. `begin` comes with its result, `pre` with
whether `Ignore` was not called in it. -/
inductive Ev where
  | begin (x y : Nat) (ok : Bool)
  | pre (x y : Nat) (ok : Bool)
  | post (x y : Nat)
  | separate (x y : Nat)
deriving DecidableEq, Repr

/-- `Space`: space.go:19-85, and the objects it refers to. `fresh` is the number of the next collision object, `pool`
those given back to `pooledArbiters`; the pool never hands them out again here, see `C76`. `evs` are the callbacks
called so far, the latest first. `threshold` is `SleepTimeThreshold`, `none` for infinity. -/
structure St (K : Type) where
  bd : Nat → Bd K
  sh : Nat → Sh
  cn : Nat → Cn
  ar : Nat → Ar
  nb : Nat
  dyn : List Nat
  stat : List Nat
  roused : List Nat
  sleeping : List Nat
  dynIdx : List Nat
  statIdx : List Nat
  cons : List Nat
  arbiters : List Nat
  cached : List Nat
  stamp : Nat
  persistence : Nat
  threshold : Option K
  locked : Nat
  fresh : Nat
  pool : List Nat
  evs : List Ev

variable {K : Type}

/-- Assignment to fields of one body. -/
def St.setB (s : St K) (b : Nat) (f : Bd K → Bd K) : St K :=
  { s with bd := fun x => if x = b then f (s.bd b) else s.bd x }
/-- Assignment to fields of one shape. -/
def St.setS (s : St K) (x : Nat) (f : Sh → Sh) : St K :=
  { s with sh := fun y => if y = x then f (s.sh x) else s.sh y }
/-- Assignment to fields of one joint. -/
def St.setC (s : St K) (c : Nat) (f : Cn → Cn) : St K :=
  { s with cn := fun x => if x = c then f (s.cn c) else s.cn x }
/-- Assignment to fields of one collision. -/
def St.setA (s : St K) (r : Nat) (f : Ar → Ar) : St K :=
  { s with ar := fun x => if x = r then f (s.ar r) else s.ar x }

/-- `IsSleeping`: body.go:431-433. -/
def St.asleep (s : St K) (b : Nat) : Bool := (s.bd b).root.isSome

/-- `SpatialIndex.Remove`: bb_tree.go:248-254. Removing what is not there dereferences nil. -/
def idxRemove (l : List Nat) (x : Nat) : Option (List Nat) := if x ∈ l then some (l.erase x) else none

/-- `arbiterSetEql`: space.go:1258-1263, the same two shapes in either order. -/
def Ar.isPair (r : Ar) (x y : Nat) : Bool := (r.sa = x && r.sb = y) || (r.sa = y && r.sb = x)

/-- `cachedArbiters.Find`. -/
def St.lookup (s : St K) (x y : Nat) : Option Nat := s.cached.find? fun r => (s.ar r).isPair x y

/-- The loop space.go:173-176. -/
def wakeShapes (s : St K) : List Nat → Option (St K)
  | [] => some s
  | x :: l => match idxRemove s.statIdx x with
    | none => none
    | some i => wakeShapes { s with statIdx := i, dynIdx := s.dynIdx ++ [x] } l

/-- space.go:190-205: one collision of a body that is woken. The memory of its contacts is in
`Model/ContactBuffer.lean`. -/
def restoreArb (s : St K) (r : Nat) : St K :=
  let s1 := match s.lookup (s.ar r).sa (s.ar r).sb with
    | some _ => s
    | none => { s with cached := r :: s.cached }
  let s2 := s1.setA r fun a => { a with stamp := s.stamp }
  { s2 with arbiters := s2.arbiters ++ [r] }

/-- The loop space.go:178-207. -/
def wakeArbs (s : St K) (b : Nat) : List Nat → St K
  | [] => s
  | r :: l => wakeArbs (if b = (s.ar r).a ∨ (s.bd (s.ar r).a).kind = .static then restoreArb s r else s) b l

/-- The loop space.go:209-213. -/
def wakeCons (s : St K) (b : Nat) : List Nat → St K
  | [] => s
  | c :: l => wakeCons
      (if b = (s.cn c).a ∨ (s.bd (s.cn c).a).kind = .static then { s with cons := s.cons ++ [c] } else s) b l

/-- `Space.Activate` when unlocked: space.go:171-214. -/
def wakeBody (s : St K) (b : Nat) : Option (St K) :=
  match wakeShapes { s with dyn := s.dyn ++ [b] } (s.bd b).shapes with
  | none => none
  | some s1 => some (wakeCons (wakeArbs s1 b (s.bd b).arbs) b (s.bd b).cons)

/-- `Space.Activate`: space.go:162-214. -/
def spaceActivate (s : St K) (b : Nat) : Option (St K) :=
  if s.locked ≠ 0 then some (if b ∈ s.roused then s else { s with roused := s.roused ++ [b] }) else wakeBody s b

section
variable [Zero K]

/-- The loop body.go:384-392. The fuel stands for the number of rounds; without it the loop would not end. -/
def activateLoop : Nat → St K → Option Nat → Option (St K)
  | 0, _, _ => none
  | _ + 1, s, none => some s
  | n + 1, s, some b =>
    let next := (s.bd b).next
    match spaceActivate (s.setB b fun d => { d with idle := 0, root := none, next := none }) b with
    | none => none
    | some s1 => activateLoop n s1 next

/-- The loop body.go:402-414. -/
def touchIdle (s : St K) (b : Nat) : List Nat → St K
  | [] => s
  | r :: l =>
    let other := if (s.ar r).a = b then (s.ar r).b else (s.ar r).a
    touchIdle (if (s.bd other).kind ≠ .static then s.setB other fun d => { d with idle := 0 } else s) b l

/-- `Body.Activate`: body.go:374-415. -/
def activate (s : St K) (b : Nat) : Option (St K) :=
  if (s.bd b).kind ≠ .dynamic then some s
  else
    let s1 := s.setB b fun d => { d with idle := 0 }
    match (match (s1.bd b).root with
      | none => some s1
      | some root =>
        if (s1.bd root).root.isSome then
          match activateLoop (s1.nb + 1) s1 (some root) with
          | none => none
          | some s2 => some { s2 with sleeping := s2.sleeping.erase root }
        else some s1) with
    | none => none
    | some s3 => some (touchIdle s3 b (s3.bd b).arbs)

/-- `Body.ActivateStatic`: body.go:418-428; `l` are the collisions of the body. -/
def activateStatic (s : St K) (b : Nat) (filter : Nat) : List Nat → Option (St K)
  | [] => some s
  | r :: l =>
    match (if filter = (s.ar r).sa ∨ filter = (s.ar r).sb then
        activate s (if (s.ar r).a = b then (s.ar r).b else (s.ar r).a) else some s) with
    | none => none
    | some s1 => activateStatic s1 b filter l
end

/-! ### Falling asleep -/

/-- The loop space.go:224-227. -/
def sleepShapes (s : St K) : List Nat → Option (St K)
  | [] => some s
  | x :: l => match idxRemove s.dynIdx x with
    | none => none
    | some i => sleepShapes { s with dynIdx := i, statIdx := s.statIdx ++ [x] } l

/-- Deleting from a slice by moving the last element into the gap: space.go:702-706, body.go:549-553. -/
def swapRemove (l : List Nat) (x : Nat) : List Nat :=
  match l.idxOf? x, l.getLast? with
  | some i, some y => (l.set i y).dropLast
  | _, _ => l

/-- `UncacheArbiter`: space.go:694-711. -/
def uncache (s : St K) (r : Nat) : Option (St K) :=
  let s1 := match s.lookup (s.ar r).sa (s.ar r).sb with
    | none => s
    | some r' => { s with cached := s.cached.erase r' }
  if r ∈ s1.arbiters then some { s1 with arbiters := swapRemove s1.arbiters r } else none

/-- The loop space.go:229-239; copying the contacts to memory of their own is not modelled. -/
def sleepArbs (s : St K) (b : Nat) : List Nat → Option (St K)
  | [] => some s
  | r :: l =>
    match (if b = (s.ar r).a ∨ (s.bd (s.ar r).a).kind = .static then uncache s r else some s) with
    | none => none
    | some s1 => sleepArbs s1 b l

/-- The loop space.go:241-250. -/
def sleepCons (s : St K) (b : Nat) : List Nat → St K
  | [] => s
  | c :: l => sleepCons
      (if b = (s.cn c).a ∨ (s.bd (s.cn c).a).kind = .static then { s with cons := s.cons.erase c } else s) b l

/-- `Space.Deactivate`: space.go:216-251. -/
def deactivate (s : St K) (b : Nat) : Option (St K) :=
  match sleepShapes { s with dyn := s.dyn.erase b } (s.bd b).shapes with
  | none => none
  | some s1 => match sleepArbs s1 b (s.bd b).arbs with
    | none => none
    | some s2 => some (sleepCons s2 b (s.bd b).cons)

/-! ### Adding and removing -/

section
variable [Zero K]

/-- `AttachShape`: body.go:436-441. -/
def attach (s : St K) (x b : Nat) : St K :=
  (s.setS x fun d => { d with body := b }).setB b fun d => { d with shapes := d.shapes ++ [x] }

/-- `AddShape`: space.go:256-275. -/
def addShape (s : St K) (x : Nat) : Option (St K) :=
  let b := (s.sh x).body
  if (s.bd b).kind = .static then
    some ({ s with statIdx := s.statIdx ++ [x] }.setS x fun d => { d with space := true })
  else match activate s b with
    | none => none
    | some s1 => some ({ s1 with dynIdx := s1.dynIdx ++ [x] }.setS x fun d => { d with space := true })

/-- `Arbiter.Unthread`: arbiter.go:70-95. -/
def unthread (s : St K) (r : Nat) : St K :=
  let s1 := s.setB (s.ar r).a fun d => { d with arbs := d.arbs.erase r }
  s1.setB (s.ar r).b fun d => { d with arbs := d.arbs.erase r }

/-- `CachedArbitersFilter` with a shape: hashset_arbiter.go:34-59. The second component tells if the collision is
kept. -/
def cachedFilter (s : St K) (b x r : Nat) : St K × Bool :=
  let a := s.ar r
  if (b = a.a ∧ x = a.sa) ∨ (b = a.b ∧ x = a.sb) then
    let s1 := if a.state ≠ .cached then
        { s.setA r fun d => { d with state := .invalidated } with evs := .separate a.sa a.sb :: s.evs }
      else s
    let s2 := unthread s1 r
    ({ s2 with arbiters := s2.arbiters.erase r, pool := r :: s2.pool }, false)
  else (s, true)

/-- `HashSet.Filter` with the function above; `l` are the collisions still to be looked at. -/
def filterArbs (s : St K) (b x : Nat) : List Nat → St K
  | [] => s
  | r :: l =>
    let t := cachedFilter s b x r
    filterArbs (if t.2 then t.1 else { t.1 with cached := t.1.cached.erase r }) b x l

/-- `RemoveShape`: space.go:278-297, with `FilterArbiters` space.go:400-408. The lock in `FilterArbiters` matters only
for callbacks. -/
def removeShape (s : St K) (x : Nat) : Option (St K) :=
  let b := (s.sh x).body
  let static := decide ((s.bd b).kind = .static)
  match (if static then activateStatic s b x (s.bd b).arbs else activate s b) with
  | none => none
  | some s1 =>
    let s2 := s1.setB b fun d => { d with shapes := swapRemove d.shapes x }
    let s3 := filterArbs s2 b x s2.cached
    match (if static then
        match idxRemove s3.statIdx x with
        | none => none
        | some i => some { s3 with statIdx := i }
      else
        match idxRemove s3.dynIdx x with
        | none => none
        | some i => some { s3 with dynIdx := i }) with
    | none => none
    | some s4 => some (s4.setS x fun d => { d with space := false })

/-- `AddBody`: space.go:302-309. -/
def addBody (s : St K) (b : Nat) : St K :=
  let s1 := if (s.bd b).kind = .static then { s with stat := s.stat ++ [b] } else { s with dyn := s.dyn ++ [b] }
  s1.setB b fun d => { d with space := true }

/-- Several shapes of one body: the loop space.go:316-318. -/
def addShapes (s : St K) : List Nat → Option (St K)
  | [] => some s
  | x :: l => match addShape s x with
    | none => none
    | some s1 => addShapes s1 l

/-- `AddBodyWithShapes`: space.go:314-319. -/
def addBodyWithShapes (s : St K) (b : Nat) : Option (St K) := addShapes (addBody s b) (s.bd b).shapes

/-- `RemoveBody`: space.go:336-355. -/
def removeBody (s : St K) (b : Nat) : Option (St K) :=
  match activate s b with
  | none => none
  | some s1 =>
    let s2 := if (s1.bd b).kind = .static then { s1 with stat := s1.stat.erase b } else { s1 with dyn := s1.dyn.erase b }
    some (s2.setB b fun d => { d with space := false })

/-- The loop of `EachShape` body.go:593-597 with `RemoveShape`: the length is read in every round, and the shape in
place `i` is removed by moving the last one there. -/
def removeShapesLoop : Nat → St K → Nat → Nat → Option (St K)
  | 0, _, _, _ => none
  | n + 1, s, b, i =>
    match (s.bd b).shapes[i]? with
    | none => some s
    | some x => match removeShape s x with
      | none => none
      | some s1 => removeShapesLoop n s1 b (i + 1)

/-- `RemoveBodyWithShapes`: space.go:358-363. -/
def removeBodyWithShapes (s : St K) (b : Nat) : Option (St K) :=
  match removeShapesLoop ((s.bd b).shapes.length + 1) s b 0 with
  | none => none
  | some s1 => removeBody s1 b

/-- `AddConstraint`: space.go:365-382. -/
def addConstraint (s : St K) (c : Nat) : Option (St K) :=
  let a := (s.cn c).a
  let b := (s.cn c).b
  match activate s a with
  | none => none
  | some s1 => match activate s1 b with
    | none => none
    | some s2 =>
      let s3 := { s2 with cons := s2.cons ++ [c] }
      let s4 := s3.setB a fun d => { d with cons := c :: d.cons }
      let s5 := s4.setB b fun d => { d with cons := c :: d.cons }
      some (s5.setC c fun d => { d with space := true })

/-- `RemoveConstraint`: space.go:384-398; taking a joint from the list of a body that does not have it dereferences
nil (`C30_remove_absent`). -/
def removeConstraint (s : St K) (c : Nat) : Option (St K) :=
  let a := (s.cn c).a
  let b := (s.cn c).b
  match activate s a with
  | none => none
  | some s1 => match activate s1 b with
    | none => none
    | some s2 =>
      let s3 := { s2 with cons := s2.cons.erase c }
      if c ∈ (s3.bd a).cons ∧ c ∈ (s3.bd b).cons then
        let s4 := s3.setB a fun d => { d with cons := d.cons.erase c }
        let s5 := s4.setB b fun d => { d with cons := d.cons.erase c }
        some (s5.setC c fun d => { d with space := false })
      else none

/-- The loop body.go:211-214. -/
def moveShapes (s : St K) (fromStatic toStatic : Bool) : List Nat → Option (St K)
  | [] => some s
  | x :: l =>
    match (if fromStatic then
        (match idxRemove s.statIdx x with
         | none => none
         | some i => some { s with statIdx := i })
      else
        (match idxRemove s.dynIdx x with
         | none => none
         | some i => some { s with dynIdx := i })) with
    | none => none
    | some s1 => moveShapes (if toStatic then { s1 with statIdx := s1.statIdx ++ [x] } else { s1 with dynIdx := s1.dynIdx ++ [x] })
        fromStatic toStatic l

/-- `SetType` on a body in an unlocked space: body.go:138-216. The type is changed before `Activate` is called. -/
def setType (s : St K) (b : Nat) (k : Kind) : Option (St K) :=
  let old := (s.bd b).kind
  if old = k then some s
  else
    let s1 := s.setB b fun d => { d with kind := k, idle := 0 }
    if (s.bd b).space = false then some s1
    else
      match (if old ≠ .static then activate s1 b else some s1) with
      | none => none
      | some s2 =>
        let s3 := if old = .static then { s2 with stat := s2.stat.erase b, dyn := s2.dyn ++ [b] }
          else if k = .static then { s2 with dyn := s2.dyn.erase b, stat := s2.stat ++ [b] } else s2
        moveShapes s3 (old = .static) (k = .static) (s3.bd b).shapes

/-- `append(s[:i], s[i+1:]...)` on the backing array: elements after place `i` of the first `len` move left, the last
one stays behind as well. -/
def shiftLeft (arr : List Nat) (i len : Nat) : List Nat :=
  arr.take i ++ (arr.take len).drop (i + 1) ++ arr.drop (len - 1)

/-- `SetGravity`: the loop space.go:147-149. It ranges over the slice as it was at the start, but `Activate` deletes
from the same backing array. `arr` is the backing array, `i` the round, `n` the length at the start. -/
def gravityLoop : Nat → St K → List Nat → Nat → Nat → Option (St K)
  | 0, _, _, _, _ => none
  | m + 1, s, arr, i, n =>
    if i < n then
      match arr[i]? with
      | none => none
      | some c => match activate s c with
        | none => none
        | some s1 =>
          let arr1 := if s1.sleeping.length < s.sleeping.length then
              shiftLeft arr (s.sleeping.idxOf c) s.sleeping.length else arr
          gravityLoop m s1 arr1 (i + 1) n
    else some s

/-- `SetGravity`: space.go:143-150. -/
def setGravity (s : St K) : Option (St K) := gravityLoop (s.sleeping.length + 1) s s.sleeping 0 s.sleeping.length
end

/-! ### A step -/

/-- A pair found touching in a step: the shapes in the order of the collision routine, how many contacts, and what
the user's callbacks do: the results of Begin and PreSolve, whether `Ignore` is called in them, and the bodies they
wake. -/
structure Hit where
  x : Nat
  y : Nat
  count : Nat
  begin : Bool
  pre : Bool
  ignore : Bool
  wake : List Nat

/-- What a step depends on besides the state here: the time step, the bodies that move too fast to be idle
(space.go:472), the pairs found touching in the order found, and bodies woken by callbacks called late in the step. -/
structure StepIn (K : Type) where
  dt : K
  moving : Nat → Bool
  hits : List Hit
  lateWake : List Nat

/-- The loop space.go:551-558. -/
def resetArbs (s : St K) : List Nat → St K
  | [] => s
  | r :: l =>
    let s1 := s.setA r fun d => { d with state := .normal }
    resetArbs (if s1.asleep (s1.ar r).a = false ∧ s1.asleep (s1.ar r).b = false then unthread s1 r else s1) l

section
variable [Zero K]

/-- Several calls of `Activate`. -/
def activateAll (s : St K) : List Nat → Option (St K)
  | [] => some s
  | b :: l => match activate s b with
    | none => none
    | some s1 => activateAll s1 l

/-- `Insert` in the cache and `Arbiter.Init`: space.go:1090-1096; the number of the collision. -/
def findArb (s : St K) (x y : Nat) : St K × Nat :=
  match s.lookup x y with
  | some r => (s, r)
  | none =>
    let r := s.fresh
    ({ s with fresh := s.fresh + 1, cached := r :: s.cached,
              ar := fun z => if z = r then ⟨x, y, (s.sh x).body, (s.sh y).body, .first, 0, 0⟩ else s.ar z }, r)

/-- `Update`: arbiter.go:186-256, the fields used here. -/
def updateArb (s : St K) (r x y count : Nat) : St K :=
  s.setA r fun d =>
    { d with sa := x, sb := y, a := (s.sh x).body, b := (s.sh y).body, count := count,
             state := if d.state = .cached then .first else d.state }

/-- `SpaceCollideShapesFunc` for a pair that touches: space.go:1085-1129. -/
def collide (s : St K) (h : Hit) : Option (St K) :=
  let (s0, r) := findArb s h.x h.y
  let s1 := updateArb s0 r h.x h.y h.count
  let first := decide ((s1.ar r).state = .first)
  let s2 := if first then
      let s2 := { s1 with evs := .begin h.x h.y h.begin :: s1.evs }
      if h.begin then s2 else s2.setA r fun d => { d with state := .ignore }
    else s1
  let ignored := decide ((s2.ar r).state = .ignore)
  let s3 := if ignored then s2
    else
      let s3 := { s2 with evs := .pre h.x h.y (!h.ignore) :: s2.evs }
      if h.ignore then s3.setA r fun d => { d with state := .ignore } else s3
  let accept := !ignored && h.pre && decide ((s3.ar r).state ≠ .ignore)
    && !((s3.sh h.x).sensor || (s3.sh h.y).sensor)
    && !(decide ((s3.bd (s3.sh h.x).body).kind ≠ .dynamic) && decide ((s3.bd (s3.sh h.y).body).kind ≠ .dynamic))
  let s4 := if accept then { s3 with arbiters := s3.arbiters ++ [r] }
    else s3.setA r fun d => { d with count := 0, state := if d.state = .ignore then .ignore else .normal }
  let s5 := s4.setA r fun d => { d with stamp := s4.stamp }
  activateAll s5 h.wake

/-- All pairs found in a step. -/
def collideAll (s : St K) : List Hit → Option (St K)
  | [] => some s
  | h :: l => match collide s h with
    | none => none
    | some s1 => collideAll s1 l

/-- The loop space.go:668-672. -/
def wakeRoused (s : St K) : List Nat → Option (St K)
  | [] => some s
  | b :: l => match spaceActivate s b with
    | none => none
    | some s1 => wakeRoused s1 l

/-- `Unlock` without the post-step callbacks: space.go:657-672. -/
def unlock (s : St K) : Option (St K) :=
  let s1 := { s with locked := s.locked - 1 }
  if s1.locked ≠ 0 then some s1
  else match wakeRoused s1 s1.roused with
    | none => none
    | some s2 => some { s2 with roused := [] }

/-- `PushArbiter`: body.go:458-465. If the collision is in the list already, the list becomes circular
(`C31_push_twice`) and walking it does not end. -/
def pushArb (s : St K) (b r : Nat) : Option (St K) :=
  if r ∈ (s.bd b).arbs then none else some (s.setB b fun d => { d with arbs := r :: d.arbs })

/-- The loop space.go:481-496. -/
def pushArbs (s : St K) : List Nat → Option (St K)
  | [] => some s
  | r :: l =>
    let a := (s.ar r).a
    let b := (s.ar r).b
    let sleep := s.threshold.isSome
    match (if sleep ∧ ((s.bd b).kind = .kinematic ∨ s.asleep a) then activate s a else some s) with
    | none => none
    | some s1 => match (if sleep ∧ ((s1.bd a).kind = .kinematic ∨ s1.asleep b) then activate s1 b else some s1) with
      | none => none
      | some s2 => match pushArb s2 a r with
        | none => none
        | some s3 => match pushArb s3 b r with
          | none => none
          | some s4 => pushArbs s4 l

/-- The loop space.go:500-507. -/
def holdJoints (s : St K) : List Nat → Option (St K)
  | [] => some s
  | c :: l =>
    match (if (s.bd (s.cn c).b).kind = .kinematic then activate s (s.cn c).a else some s) with
    | none => none
    | some s1 => match (if (s1.bd (s1.cn c).a).kind = .kinematic then activate s1 (s1.cn c).b else some s1) with
      | none => none
      | some s2 => holdJoints s2 l

/-- `ComponentAdd`: body.go:467-474. -/
def componentAdd (s : St K) (root b : Nat) : St K :=
  let s1 := s.setB b fun d => { d with root := some root }
  if b ≠ root then
    let s2 := s1.setB b fun d => { d with next := (s1.bd root).next }
    s2.setB root fun d => { d with next := some b }
  else s1

/-- `FloodFillComponent`: space.go:1169-1201. The fuel bounds the depth of the recursion; a fatal message if the body
is in another component. -/
def floodFill : Nat → St K → Nat → Nat → Option (St K)
  | 0, _, _, _ => none
  | n + 1, s, root, b =>
    if (s.bd b).kind ≠ .dynamic then some s
    else match (s.bd b).root with
      | none =>
        let s1 := componentAdd s root b
        let nb := (s1.bd b).arbs.map (fun r => if b = (s1.ar r).a then (s1.ar r).b else (s1.ar r).a) ++
          (s1.bd b).cons.map (fun c => if b = (s1.cn c).a then (s1.cn c).b else (s1.cn c).a)
        nb.foldlM (fun t o => floodFill n t root o) s1
      | some other => if other ≠ root then none else some s

/-- The members of a component, following `sleepingNext`: space.go:521, 1161. -/
def chain (s : St K) : Nat → Option Nat → Option (List Nat)
  | 0, _ => none
  | _ + 1, none => some []
  | n + 1, some b => match chain s n (s.bd b).next with
    | none => none
    | some l => some (b :: l)

/-- Several calls of `Deactivate`: the loop space.go:521-523. `Deactivate` does not change the links. -/
def deactivateAll (s : St K) : List Nat → Option (St K)
  | [] => some s
  | b :: l => match deactivate s b with
    | none => none
    | some s1 => deactivateAll s1 l

variable [LT K] [DecidableRel (α := K) (· < ·)]

/-- `ComponentActive`: space.go:1160-1167. -/
def componentActive (s : St K) (threshold : K) (l : List Nat) : Bool := l.any fun b => decide ((s.bd b).idle < threshold)

/-- The loop space.go:510-536; `i` is the index. -/
def sleepLoop : Nat → St K → K → Nat → Option (St K)
  | 0, _, _, _ => none
  | n + 1, s, th, i =>
    match s.dyn[i]? with
    | none => some s
    | some b =>
      if (s.bd b).root.isSome then
        sleepLoop n (s.setB b fun d => { d with root := none, next := none }) th (i + 1)
      else match floodFill (s.nb + 1) s b b with
        | none => none
        | some s1 => match chain s1 (s1.nb + 1) (some b) with
          | none => none
          | some l =>
            if componentActive s1 th l then
              sleepLoop n (s1.setB b fun d => { d with root := none, next := none }) th (i + 1)
            else match deactivateAll { s1 with sleeping := s1.sleeping ++ [b] } l with
              | none => none
              | some s2 => sleepLoop n s2 th i

variable [Add K]

/-- The loop space.go:462-477. -/
def updateIdle (s : St K) (dt : K) (moving : Nat → Bool) : List Nat → St K
  | [] => s
  | b :: l => updateIdle
      (if (s.bd b).kind = .dynamic then s.setB b fun d => { d with idle := if moving b then 0 else d.idle + dt } else s)
      dt moving l

/-- `ProcessComponents`: space.go:448-538. -/
def processComponents (s : St K) (dt : K) (moving : Nat → Bool) : Option (St K) :=
  let s1 := if s.threshold.isSome then updateIdle s dt moving s.dyn else s
  match pushArbs s1 s1.arbiters with
  | none => none
  | some s2 => match s2.threshold with
    | none => some s2
    | some th => match holdJoints s2 s2.cons with
      | none => none
      | some s3 => sleepLoop (s3.dyn.length + 1) s3 th 0

/-- `SpaceArbiterSetFilter`: hashset_arbiter.go:4-32. -/
def setFilter (s : St K) (r : Nat) : St K × Bool :=
  let a := s.ar r
  if ((s.bd a.a).kind = .static ∨ s.asleep a.a) ∧ ((s.bd a.b).kind = .static ∨ s.asleep a.b) then (s, true)
  else
    let ticks := s.stamp - a.stamp
    let s1 := if ticks ≥ 1 ∧ a.state ≠ .cached then
        { s.setA r fun d => { d with state := .cached } with evs := .separate a.sa a.sb :: s.evs }
      else s
    if ticks ≥ s.persistence then
      ({ s1.setA r fun d => { d with count := 0 } with pool := r :: s1.pool }, false)
    else (s1, true)

/-- `cachedArbiters.Filter`: space.go:581-583. -/
def filterOld (s : St K) : List Nat → St K
  | [] => s
  | r :: l =>
    let t := setFilter s r
    filterOld (if t.2 then t.1 else { t.1 with cached := t.1.cached.erase r }) l

/-- The loop space.go:641-643. -/
def postSolve (s : St K) : List Nat → St K
  | [] => s
  | r :: l => postSolve { s with evs := .post (s.ar r).sa (s.ar r).sb :: s.evs } l

/-- `Step` with a time step that is not zero: space.go:545-646, without motion and post-step callbacks. -/
def step (s : St K) (inp : StepIn K) : Option (St K) :=
  let s1 := resetArbs { s with stamp := s.stamp + 1 } s.arbiters
  let s2 := { s1 with arbiters := [], locked := s1.locked + 1 }
  match collideAll s2 inp.hits with
  | none => none
  | some s3 => match unlock s3 with
    | none => none
    | some s4 => match processComponents s4 inp.dt inp.moving with
      | none => none
      | some s5 =>
        let s6 := { s5 with locked := s5.locked + 1 }
        let s7 := filterOld s6 s6.cached
        let s8 := postSolve s7 s7.arbiters
        match activateAll s8 inp.lateWake with
        | none => none
        | some s9 => unlock s9

/-- `Step`: space.go:540-646, with the test space.go:541-543. -/
def stepPublic [DecidableEq K] (s : St K) (inp : StepIn K) : Option (St K) := if inp.dt = 0 then some s else step s inp
end

end Sp
end Cm
