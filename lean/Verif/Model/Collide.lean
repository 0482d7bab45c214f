import Verif.Model.Shapes
import Verif.Model.Handlers
import Verif.Model.ContactSet
/-!
# The narrow phase: closest points (GJK and EPA) and contacts

collision.go. `inf` is `infinity`, `tiny` is `math.SmallestNonzeroFloat64`. Identifiers of type `uint32` are
natural numbers. The recursions carry their remaining number of rounds, which the code bounds by
`maxGjkIterations` and `maxEpaIterations`. The result of the search carries a ghost value `Stop`, the reason
why the search ended, which the code does not compute.
-/
namespace Cm

section
variable {K : Type} [Zero K] [One K] [Add K] [Sub K] [Mul K] [Div K] [Neg K] [NatCast K] [LinearOrder K]

/-- `SupportPoint`: collision.go:16-20 -/
structure SupportPoint (K : Type) where
  p : V2 K
  index : Nat
deriving DecidableEq

/-- The variables of the loop of collision.go:48-61. -/
def supportIndexGo (n : V2 K) : List (Plane K) → Nat → K → Nat → Nat
  | [], _, _, index => index
  | pl :: l, i, mx, index =>
    if pl.v0.dot n > mx then supportIndexGo n l (i + 1) (pl.v0.dot n) i else supportIndexGo n l (i + 1) mx index

/-- collision.go:48-61 -/
def polySupportIndex (inf : K) (planes : List (Plane K)) (n : V2 K) : Nat := supportIndexGo n planes 0 (-inf) 0

/-- `planes[i]`; only used for indexes in range. -/
def planeAt (planes : List (Plane K)) (i : Nat) : Plane K := planes.getD i ⟨V2.zero, V2.zero⟩

/-- collision.go:28-46: the support function of the class. -/
def Cls.support (inf : K) : Cls K → V2 K → SupportPoint K
  | .circle c, _ => ⟨c.tc, 0⟩
  | .segment s, n => if s.ta.dot n > s.tb.dot n then ⟨s.ta, 0⟩ else ⟨s.tb, 1⟩
  | .poly p, n => let i := polySupportIndex inf p.world n; ⟨(planeAt p.world i).v0, i⟩

/-- shape.go:164-185 -/
def Cls.pointAt : Cls K → Nat → SupportPoint K
  | .circle c, _ => ⟨c.tc, 0⟩
  | .segment s, i => if i = 0 then ⟨s.ta, i⟩ else ⟨s.tb, i⟩
  | .poly p, i => let index := if i < p.world.length then i else 0; ⟨(planeAt p.world index).v0, index⟩

/-- `MinkowskiPoint`: collision.go:212-219 -/
structure MPoint (K : Type) where
  a : V2 K
  b : V2 K
  ab : V2 K
  id : Nat
deriving DecidableEq

/-- collision.go:221-223 -/
def MPoint.new (a b : SupportPoint K) : MPoint K := ⟨a.p, b.p, b.p.sub a.p, a.index % 256 * 256 + b.index % 256⟩

/-- The two shapes of a `SupportContext`, collision.go:63-66, with their boxes. -/
structure Ctx (K : Type) where
  s1 : Cls K
  s2 : Cls K
  bb1 : BB K
  bb2 : BB K

/-- collision.go:69-73 -/
def Ctx.support (inf : K) (ctx : Ctx K) (n : V2 K) : MPoint K :=
  MPoint.new (ctx.s1.support inf n.neg) (ctx.s2.support inf n)

/-- `ClosestPoints`: collision.go:75-84 -/
structure Closest (K : Type) where
  a : V2 K
  b : V2 K
  n : V2 K
  d : K
  id : Nat
deriving DecidableEq

/-- collision.go:226-253. The `SmallestNonzeroFloat64` added to `d2`, which is positive there, is left out. -/
def MPoint.closestPoints (M : Mth K) (v0 v1 : MPoint K) : Closest K :=
  let t := closestT v0.ab v1.ab
  let p := lerpT v0.ab v1.ab t
  let pa := lerpT v0.a v1.a t
  let pb := lerpT v0.b v1.b t
  let id := v0.id % 65536 * 65536 + v1.id % 65536
  let delta := v1.ab.sub v0.ab
  let n := delta.rperp.unit M
  let d := n.dot p
  if d ≤ 0 ∨ (-1 < t ∧ t < 1) then ⟨pa, pb, n, d, id⟩
  else
    let d2 := p.mag M
    ⟨pa, pb, p.scale (1 / d2), d2, id⟩

/-- Why the search ended (ghost). -/
inductive Stop where
  | gjkDone | gjkLimit | epaDone | epaLimit
deriving DecidableEq, Repr

/-- The loop of collision.go:429-444: `i` the index of `prev`, `j` that of the head. -/
def epaScanGo : MPoint K → Nat → Nat → List (MPoint K) → K → Nat → Nat
  | _, _, _, [], _, mini => mini
  | prev, i, j, h :: l, minDist, mini =>
    if closestDist prev.ab h.ab < minDist then epaScanGo h j (j + 1) l (closestDist prev.ab h.ab) i
    else epaScanGo h j (j + 1) l minDist mini

/-- The first element of an array `hull[0:count]`, read with its index in range. -/
def hullAt (hull : List (MPoint K)) (i : Nat) : MPoint K := hull.getD i ⟨V2.zero, V2.zero, V2.zero, 0⟩

/-- collision.go:429-444 -/
def epaScan (inf : K) (hull : List (MPoint K)) : Nat :=
  epaScanGo (hullAt hull (hull.length - 1)) (hull.length - 1) 0 hull inf 0

/-- The loop of collision.go:459-475 over the hull starting after the split edge; `h0` is the last point kept. -/
def epaRebuild (p : MPoint K) : MPoint K → List (MPoint K) → List (MPoint K)
  | _, [] => []
  | h0, h1 :: rest =>
    if pointGreater h0.ab (rest.headD p).ab h1.ab then h1 :: epaRebuild p h1 rest else epaRebuild p h0 rest

/-- collision.go:428-486; `fuel` is `maxEpaIterations - iteration`. The slice `hull` with its `count` is a list. -/
def epaRecurse (M : Mth K) (inf : K) (ctx : Ctx K) : Nat → List (MPoint K) → Closest K × Stop
  | fuel, hull =>
    let mini := epaScan inf hull
    let v0 := hullAt hull mini
    let v1 := hullAt hull ((mini + 1) % hull.length)
    let p := ctx.support inf (v1.ab.sub v0.ab).perp
    if ¬ (p.id = v0.id ∨ p.id = v1.id) ∧ pointGreater v0.ab v1.ab p.ab = true then
      match fuel with
      | 0 => (v0.closestPoints M v1, .epaLimit)
      | fuel + 1 => epaRecurse M inf ctx fuel (p :: epaRebuild p p (hull.rotate (mini + 1)))
    else (v0.closestPoints M v1, .epaDone)

/-- collision.go:420-424 with `maxEpaIterations = 30` (collision.go:12). -/
def epa (M : Mth K) (inf : K) (ctx : Ctx K) (v0 v1 v2 : MPoint K) : Closest K × Stop :=
  epaRecurse M inf ctx 29 [v0, v1, v2]

/-- collision.go:382-415; `fuel` is `maxGjkIterations + 1 - iteration`. The recursive call which exchanges the two
points happens at most once in a row, because `pointGreater` is asymmetric (`flip_once`). -/
def gjkRecurse (M : Mth K) (inf : K) (ctx : Ctx K) : Nat → MPoint K → MPoint K → Closest K × Stop
  | 0, v0, v1 => (v0.closestPoints M v1, .gjkLimit)
  | fuel + 1, w0, w1 =>
    let flip := pointGreater w1.ab w0.ab V2.zero
    let v0 := if flip then w1 else w0
    let v1 := if flip then w0 else w1
    let t := closestT v0.ab v1.ab
    let n := if -1 < t ∧ t < 1 then (v1.ab.sub v0.ab).perp else (lerpT v0.ab v1.ab t).neg
    let p := ctx.support inf n
    if pointGreater p.ab v0.ab V2.zero && pointGreater v1.ab p.ab V2.zero then epa M inf ctx v0 p v1
    else if checkAxis v0.ab v1.ab p.ab n then (v0.closestPoints M v1, .gjkDone)
    else if closestDist v0.ab p.ab < closestDist p.ab v1.ab then gjkRecurse M inf ctx fuel v0 p
    else gjkRecurse M inf ctx fuel p v1

/-- The starting points of collision.go:362-374. -/
def gjkStart (inf : K) (ctx : Ctx K) (id : Nat) : MPoint K × MPoint K :=
  if id ≠ 0 then
    (MPoint.new (ctx.s1.pointAt (id / 16777216 % 256)) (ctx.s2.pointAt (id / 65536 % 256)),
      MPoint.new (ctx.s1.pointAt (id / 256 % 256)) (ctx.s2.pointAt (id % 256)))
  else
    let axis := (ctx.bb1.center.sub ctx.bb2.center).perp
    (ctx.support inf axis, ctx.support inf axis.neg)

/-- collision.go:362-379 with `maxGjkIterations = 30` (collision.go:11). -/
def gjk (M : Mth K) (inf : K) (ctx : Ctx K) (id : Nat) : Closest K × Stop :=
  let v := gjkStart inf ctx id
  gjkRecurse M inf ctx 30 v.1 v.2

/-! ## Contacts -/

/-- `Edge`: collision.go:255-265 -/
structure Edge (K : Type) where
  ap : V2 K
  ah : BitVec 64
  bp : V2 K
  bh : BitVec 64
  r : K
  n : V2 K
deriving DecidableEq

/-- collision.go:267-284 -/
def Segment.supportEdge (hash : BitVec 64) (s : Segment K) (n : V2 K) : Edge K :=
  if s.tn.dot n > 0 then ⟨s.ta, Handlers.hashPair hash 0, s.tb, Handlers.hashPair hash 1, s.radius, s.tn⟩
  else ⟨s.tb, Handlers.hashPair hash 1, s.ta, Handlers.hashPair hash 0, s.radius, s.tn.neg⟩

/-- collision.go:286-311 -/
def Poly.supportEdge (inf : K) (hash : BitVec 64) (p : Poly K) (n : V2 K) : Edge K :=
  let count := p.world.length
  let i1 := polySupportIndex inf p.world n
  let i0 := (i1 + count - 1) % count
  let i2 := (i1 + 1) % count
  let pl := planeAt p.world
  if n.dot (pl i1).n > n.dot (pl i2).n then
    ⟨(pl i0).v0, Handlers.hashPair hash (BitVec.ofNat 64 i0), (pl i1).v0, Handlers.hashPair hash (BitVec.ofNat 64 i1),
      p.radius, (pl i1).n⟩
  else
    ⟨(pl i1).v0, Handlers.hashPair hash (BitVec.ofNat 64 i1), (pl i2).v0, Handlers.hashPair hash (BitVec.ofNat 64 i2),
      p.radius, (pl i2).n⟩

/-- A contact as pushed by `PushContact`: everything.go:125-133. -/
structure Pushed (K : Type) where
  p1 : V2 K
  p2 : V2 K
  hash : BitVec 64
deriving DecidableEq

/-- `CollisionInfo`: everything.go:116-123. `n` stays zero and `contacts` empty when nothing is found. -/
structure Info (K : Type) where
  swapped : Bool
  id : Nat
  n : V2 K
  contacts : List (Pushed K)
deriving DecidableEq

/-- One of the two blocks of collision.go:335-352: `q` the end of the first edge, `q'` of the second. -/
def contactAt (n : V2 K) (e1 e2 : Edge K) (u1 u2 : K) (hash : BitVec 64) : List (Pushed K) :=
  let p1 := (n.scale e1.r).add (e1.ap.lerp e1.bp (clamp01 u1))
  let p2 := (n.scale (-e2.r)).add (e2.ap.lerp e2.bp (clamp01 u2))
  if (p2.sub p1).dot n ≤ 0 then [⟨p1, p2, hash⟩] else []

/-- The guarded reciprocals of collision.go:330-331, `1 / (x + math.SmallestNonzeroFloat64)`. Adding that number, about `5·10⁻³²⁴`,
changes a float64 only when it is zero or smaller than any normal number; the model changes zero only. -/
def guardedInv (tiny x : K) : K := 1 / (if x = 0 then tiny else x)

/-- collision.go:314-353 -/
def contactPoints (tiny : K) (e1 e2 : Edge K) (points : Closest K) (info : Info K) : Info K :=
  if points.d > e1.r + e2.r then info
  else
    let n := points.n
    let dE1A := e1.ap.cross n
    let dE1B := e1.bp.cross n
    let dE2A := e2.ap.cross n
    let dE2B := e2.bp.cross n
    let e1Denom := guardedInv tiny (dE1B - dE1A)
    let e2Denom := guardedInv tiny (dE2B - dE2A)
    { info with
      n := n
      contacts :=
        contactAt n e1 e2 ((dE2B - dE1A) * e1Denom) ((dE1A - dE2A) * e2Denom) (Handlers.hashPair e1.ah e2.bh) ++
        contactAt n e1 e2 ((dE2A - dE1A) * e1Denom) ((dE1B - dE2A) * e2Denom) (Handlers.hashPair e1.bh e2.ah) }

/-- A shape as seen by the narrow phase: class, cached box, hash and the rotation of its body. -/
structure CShape (K : Type) where
  cls : Cls K
  bb : BB K
  hash : BitVec 64
  rot : V2 K
deriving DecidableEq

/-- collision.go:88-105 -/
def circleToCircle (M : Mth K) (c1 c2 : Circle K) (info : Info K) : Info K :=
  let mindist := c1.radius + c2.radius
  let delta := c2.tc.sub c1.tc
  let distsq := delta.lengthSq
  if distsq < mindist * mindist then
    let dist := M.sqrt distsq
    let n := if dist ≠ 0 then delta.scale (1 / dist) else ⟨1, 0⟩
    { info with n := n, contacts := [⟨c1.tc.add (n.scale c1.radius), c2.tc.add (n.scale (-c2.radius)), 0⟩] }
  else info

/-- collision.go:111-141 -/
def circleToSegment (M : Mth K) (circle : Circle K) (seg : Segment K) (rot : V2 K) (info : Info K) : Info K :=
  let center := circle.tc
  let segDelta := seg.tb.sub seg.ta
  let t := clamp01 (segDelta.dot (center.sub seg.ta) / segDelta.lengthSq)
  let closest := seg.ta.add (segDelta.scale t)
  let mindist := circle.radius + seg.radius
  let delta := closest.sub center
  let distsq := delta.lengthSq
  if distsq < mindist * mindist then
    let dist := M.sqrt distsq
    let n := if dist ≠ 0 then delta.scale (1 / dist) else seg.tn
    { info with
      n := n
      contacts :=
        if (t ≠ 0 ∨ n.dot (seg.aTangent.rotate rot) ≥ 0) ∧ (t ≠ 1 ∨ n.dot (seg.bTangent.rotate rot) ≥ 0) then
          [⟨center.add (n.scale circle.radius), closest.add (n.scale (-seg.radius)), 0⟩]
        else [] }
  else info

/-- collision.go:143-164 -/
def segmentToSegment (M : Mth K) (inf tiny : K) (a b : CShape K) (s1 s2 : Segment K) (info : Info K) : Info K :=
  let points := (gjk M inf ⟨a.cls, b.cls, a.bb, b.bb⟩ info.id).1
  let info := { info with id := points.id }
  let n := points.n
  if points.d > s1.radius + s2.radius then info
  else if (points.a ≠ s1.ta ∨ n.dot (s1.aTangent.rotate a.rot) ≤ 0) ∧
      (points.a ≠ s1.tb ∨ n.dot (s1.bTangent.rotate a.rot) ≤ 0) ∧
      (points.b ≠ s2.ta ∨ n.dot (s2.aTangent.rotate b.rot) ≥ 0) ∧
      (points.b ≠ s2.tb ∨ n.dot (s2.bTangent.rotate b.rot) ≥ 0) then
    contactPoints tiny (s1.supportEdge a.hash n) (s2.supportEdge b.hash n.neg) points info
  else info

/-- collision.go:166-177 -/
def circleToPoly (M : Mth K) (inf : K) (a b : CShape K) (c : Circle K) (p : Poly K) (info : Info K) : Info K :=
  let points := (gjk M inf ⟨a.cls, b.cls, a.bb, b.bb⟩ info.id).1
  let info := { info with id := points.id }
  if points.d ≤ c.radius + p.radius then
    { info with
      n := points.n
      contacts := [⟨points.a.add (points.n.scale c.radius), points.b.add (points.n.scale p.radius), 0⟩] }
  else info

/-- collision.go:179-196 -/
def segmentToPoly (M : Mth K) (inf tiny : K) (a b : CShape K) (s : Segment K) (p : Poly K) (info : Info K) : Info K :=
  let points := (gjk M inf ⟨a.cls, b.cls, a.bb, b.bb⟩ info.id).1
  let info := { info with id := points.id }
  let n := points.n
  if points.d - s.radius - p.radius ≤ 0 ∧
      ((points.a ≠ s.ta ∨ n.dot (s.aTangent.rotate a.rot) ≤ 0) ∧
        (points.a ≠ s.tb ∨ n.dot (s.bTangent.rotate a.rot) ≤ 0)) then
    contactPoints tiny (s.supportEdge a.hash n) (p.supportEdge inf b.hash n.neg) points info
  else info

/-- collision.go:198-209 -/
def polyToPoly (M : Mth K) (inf tiny : K) (a b : CShape K) (p q : Poly K) (info : Info K) : Info K :=
  let points := (gjk M inf ⟨a.cls, b.cls, a.bb, b.bb⟩ info.id).1
  let info := { info with id := points.id }
  if points.d - p.radius - q.radius ≤ 0 then
    contactPoints tiny (p.supportEdge inf a.hash points.n) (q.supportEdge inf b.hash points.n.neg) points info
  else info

/-- shape.go:59-70 -/
def Cls.order : Cls K → Nat
  | .circle _ => 0
  | .segment _ => 1
  | .poly _ => 2

/-- The table of collision.go:488-498 at `a.order + 3 b.order`; `none` is the panic of `CollisionError`. -/
def collideSorted (M : Mth K) (inf tiny : K) (a b : CShape K) (info : Info K) : Option (Info K) :=
  match a.cls, b.cls with
  | .circle c1, .circle c2 => some (circleToCircle M c1 c2 info)
  | .circle c, .segment s => some (circleToSegment M c s b.rot info)
  | .segment s1, .segment s2 => some (segmentToSegment M inf tiny a b s1 s2 info)
  | .circle c, .poly p => some (circleToPoly M inf a b c p info)
  | .segment s, .poly p => some (segmentToPoly M inf tiny a b s p info)
  | .poly p, .poly q => some (polyToPoly M inf tiny a b p q info)
  | _, _ => none

/-- collision.go:501-520 -/
def collide (M : Mth K) (inf tiny : K) (a b : CShape K) (id : Nat) : Option (Info K) :=
  if a.cls.order > b.cls.order then collideSorted M inf tiny b a ⟨true, id, V2.zero, []⟩
  else collideSorted M inf tiny a b ⟨false, id, V2.zero, []⟩

/-- collision.go:523-553; the two shapes are different, so `a != info.a` is `swapped`. -/
def shapesCollideInfo (M : Mth K) (inf tiny : K) (a b : CShape K) : Option (PointSet K) :=
  (collide M inf tiny a b 0).map fun info =>
    let normal := if info.swapped then info.n.neg else info.n
    { normal := normal
      points := info.contacts.map fun c =>
        { pointA := if info.swapped then c.p2 else c.p1
          pointB := if info.swapped then c.p1 else c.p2
          distance := (c.p2.sub c.p1).dot normal } }

/-- A shape as seen by `ShapeQuery`. -/
structure FShape (K : Type) extends CShape K where
  ident : Nat
  filter : ShapeFilter
  sensor : Bool
deriving DecidableEq

/-- The callback of space.go:1039-1054 (the user's callback only observes): `false` stays when the pair is rejected. -/
def shapeQueryVisit (M : Mth K) (inf tiny : K) (a : FShape K) (any : Bool) (b : FShape K) : Bool :=
  if a.filter.reject b.filter || a.ident == b.ident then any
  else
    match shapesCollideInfo M inf tiny a.toCShape b.toCShape with
    | some set => if set.points.length > 0 then !(a.sensor || b.sensor) else any
    | none => any

/-- space.go:1028-1064; `dyn` and `stat` are the shapes the two indexes report for the box of `a`, in order. -/
def shapeQuery (M : Mth K) (inf tiny : K) (a : FShape K) (dyn stat : List (FShape K)) : Bool :=
  stat.foldl (shapeQueryVisit M inf tiny a) (dyn.foldl (shapeQueryVisit M inf tiny a) false)

end
end Cm
