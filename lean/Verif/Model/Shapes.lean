import Verif.Model.Body
/-!
# Shapes: cached geometry, point and segment queries, moments and areas

The three classes of shapes with their local and transformed data. `Body`, `Space`, filters and surface
properties of `Shape` are not part of these structures; where a function needs the rotation of the body it is
an argument. `inf` is `infinity` and `eps` is `magicEpsilon` (everything.go:12-14). Divisions which give NaN
in Go are guarded or excluded by the hypotheses of the theorems, as said at each definition.
-/
namespace Cm

section
variable {K : Type} [Zero K] [One K] [Add K] [Sub K] [Mul K] [Div K] [Neg K] [NatCast K] [LinearOrder K]

/-- `Circle`: circle.go:9-13 -/
@[ext] structure Circle (K : Type) where
  c : V2 K
  tc : V2 K
  radius : K
deriving DecidableEq

/-- `Segment`: segment.go:6-12 -/
@[ext] structure Segment (K : Type) where
  a : V2 K
  b : V2 K
  n : V2 K
  ta : V2 K
  tb : V2 K
  tn : V2 K
  radius : K
  aTangent : V2 K
  bTangent : V2 K
deriving DecidableEq

/-- `SplittingPlane`: everything.go:167-169 -/
@[ext] structure Plane (K : Type) where
  v0 : V2 K
  n : V2 K
deriving DecidableEq

/-- `PolyShape`: polyshape.go:9-15. `Planes` holds `count` transformed planes followed by `count`
untransformed ones; here they are two lists. -/
@[ext] structure Poly (K : Type) where
  radius : K
  world : List (Plane K)
  loc : List (Plane K)
deriving DecidableEq

/-- The class of a shape: shape.go:59-70. -/
inductive Cls (K : Type) where
  | circle (c : Circle K)
  | segment (s : Segment K)
  | poly (p : Poly K)
deriving DecidableEq

/-- `PointQueryInfo` without the shape: everything.go:143-153. -/
@[ext] structure PointInfo (K : Type) where
  point : V2 K
  dist : K
  grad : V2 K
deriving DecidableEq

/-- `SegmentQueryInfo` : everything.go:156-165; `hit` is `Shape != nil`. -/
@[ext] structure SegInfo (K : Type) where
  hit : Bool
  point : V2 K
  normal : V2 K
  alpha : K
deriving DecidableEq

/-! ## Construction -/

/-- shape_factory.go:82-90 (with the offset); the transformed centre starts at zero. -/
def Circle.new (r : K) (offset : V2 K) : Circle K := ⟨offset, V2.zero, r⟩

/-- shape_factory.go:17-30 -/
def Segment.new (M : Mth K) (a b : V2 K) (r : K) : Segment K :=
  { a := a, b := b, n := ((b.sub a).unit M).rperp, ta := V2.zero, tb := V2.zero, tn := V2.zero,
    radius := r, aTangent := V2.zero, bTangent := V2.zero }

/-- segment.go:137-140 -/
def Segment.setEndpoints (M : Mth K) (s : Segment K) (a b : V2 K) : Segment K :=
  { s with a := a, b := b, n := ((b.sub a).unit M).perp }

/-- The loop of `SetVerts`, polyshape.go:154-161; `a` is the previous vertex. -/
def setVertsGo (M : Mth K) (a : V2 K) : List (V2 K) → List (Plane K)
  | [] => []
  | b :: l => ⟨b, ((b.sub a).rperp).unit M⟩ :: setVertsGo M b l

/-- polyshape.go:150-162; the vertex before the first one is the last one. The transformed half of `Planes`
starts with zeros. -/
def Poly.setVerts (M : Mth K) (p : Poly K) (verts : List (V2 K)) : Poly K :=
  { p with
    loc := setVertsGo M (verts.getLastD V2.zero) verts
    world := verts.map fun _ => ⟨V2.zero, V2.zero⟩ }

/-- shape_factory.go:115-129 -/
def Poly.new (M : Mth K) (verts : List (V2 K)) (r : K) : Poly K :=
  Poly.setVerts M ⟨r, [], []⟩ verts

/-- shape_factory.go:43-49 and 63-68 -/
def boxVerts (bb : BB K) : List (V2 K) := [⟨bb.R, bb.B⟩, ⟨bb.R, bb.T⟩, ⟨bb.L, bb.T⟩, ⟨bb.L, bb.B⟩]

/-! ## Caching the transformed data -/

/-- circle.go:15-18 -/
def Circle.cache (t : Transform K) (c : Circle K) : Circle K × BB K :=
  let tc := t.apply c.c
  ({ c with tc := tc }, BB.forCircle tc c.radius)

/-- segment.go:14-39 -/
def Segment.cache (t : Transform K) (s : Segment K) : Segment K × BB K :=
  let ta := t.apply s.a
  let tb := t.apply s.b
  let l := if ta.x < tb.x then ta.x else tb.x
  let r := if ta.x < tb.x then tb.x else ta.x
  let b := if ta.y < tb.y then ta.y else tb.y
  let top := if ta.y < tb.y then tb.y else ta.y
  ({ s with ta := ta, tb := tb, tn := t.applyVector s.n },
    ⟨l - s.radius, b - s.radius, r + s.radius, top + s.radius⟩)

/-- polyshape.go:17-43 -/
def Poly.cache (inf : K) (t : Transform K) (p : Poly K) : Poly K × BB K :=
  let w := p.loc.map fun s => (⟨t.apply s.v0, t.applyVector s.n⟩ : Plane K)
  let l := w.foldl (fun l s => min l s.v0.x) inf
  let r := w.foldl (fun r s => max r s.v0.x) (-inf)
  let b := w.foldl (fun b s => min b s.v0.y) inf
  let top := w.foldl (fun t s => max t s.v0.y) (-inf)
  ({ p with world := w }, ⟨l - p.radius, b - p.radius, r + p.radius, top + p.radius⟩)

/-- shape.go:159-162 -/
def Cls.cache (inf : K) (t : Transform K) : Cls K → Cls K × BB K
  | .circle c => let r := c.cache t; (.circle r.1, r.2)
  | .segment s => let r := s.cache t; (.segment r.1, r.2)
  | .poly p => let r := p.cache inf t; (.poly r.1, r.2)

/-! ## Point queries -/

/-- circle.go:20-34. At the centre itself Go computes `0 * (r/0)`, NaN, for `Point`; the model's value there
(the centre) is not used by any theorem. -/
def Circle.pointQuery (M : Mth K) (eps : K) (c : Circle K) (p : V2 K) : PointInfo K :=
  let delta := p.sub c.tc
  let d := delta.mag M
  { point := c.tc.add (delta.scale (c.radius / d))
    dist := d - c.radius
    grad := if d > eps then delta.scale (1 / d) else ⟨0, 1⟩ }

/-- segment.go:41-63. The gradient for tiny distances is the untransformed normal. -/
def Segment.pointQuery (M : Mth K) (eps : K) (s : Segment K) (p : V2 K) : PointInfo K :=
  let closest := closestPointOnSegment p s.ta s.tb
  let delta := p.sub closest
  let d := delta.mag M
  let g := delta.scale (1 / d)
  { point := if d ≠ 0 then closest.add (g.scale s.radius) else closest
    dist := d - s.radius
    grad := if d > eps then g else s.n }

/-- The variables of the loop of `PolyShape.PointQuery`, polyshape.go:50-54. -/
structure PolyScan (K : Type) where
  v0 : V2 K
  minDist : K
  closestPoint : V2 K
  closestNormal : V2 K
  outside : Bool

/-- One round of the loop: polyshape.go:56-72. -/
def PolyScan.next (M : Mth K) (p : V2 K) (st : PolyScan K) (pl : Plane K) : PolyScan K :=
  let v1 := pl.v0
  let outside := if !st.outside then decide (pl.n.dot (p.sub v1) > 0) else st.outside
  let closest := closestPointOnSegment p st.v0 v1
  let dist := (p.sub closest).mag M
  if dist < st.minDist then ⟨v1, dist, closest, pl.n, outside⟩
  else ⟨v1, st.minDist, st.closestPoint, st.closestNormal, outside⟩

/-- polyshape.go:50-72 -/
def Poly.scan (M : Mth K) (inf : K) (ps : Poly K) (p : V2 K) : PolyScan K :=
  ps.world.foldl (PolyScan.next M p)
    ⟨(ps.world.getLastD ⟨V2.zero, V2.zero⟩).v0, inf, V2.zero, V2.zero, false⟩

/-- polyshape.go:45-91. On the boundary Go computes `0 * (1/0)`, NaN, for `g`. -/
def Poly.pointQuery (M : Mth K) (inf eps : K) (ps : Poly K) (p : V2 K) : PointInfo K :=
  let st := ps.scan M inf p
  let dist := if st.outside then st.minDist else -st.minDist
  let g := (p.sub st.closestPoint).scale (1 / dist)
  { point := st.closestPoint.add (g.scale ps.radius)
    dist := dist - ps.radius
    grad := if st.minDist > eps then g else st.closestNormal }

/-- shape.go:192-196 -/
def Cls.pointQuery (M : Mth K) (inf eps : K) : Cls K → V2 K → PointInfo K
  | .circle c, p => c.pointQuery M eps p
  | .segment s, p => s.pointQuery M eps p
  | .poly q, p => q.pointQuery M inf eps p

/-! ## Segment queries -/

/-- circle.go:67-87. For `a = b` Go computes `t = 0/0`, NaN, which fails both comparisons; hence the guard
`qa ≠ 0`. -/
def circleSegmentQuery (M : Mth K) (center : V2 K) (r1 : K) (a b : V2 K) (r2 : K) (info : SegInfo K) : SegInfo K :=
  let da := a.sub center
  let db := b.sub center
  let rsum := r1 + r2
  let qa := da.dot da - 2 * da.dot db + db.dot db
  let qb := da.dot db - da.dot da
  let det := qb * qb - qa * (da.dot da - rsum * rsum)
  let t := (-qb - M.sqrt det) / qa
  if det ≥ 0 ∧ qa ≠ 0 ∧ 0 ≤ t ∧ t ≤ 1 then
    let n := (da.lerp db t).unit M
    ⟨true, (a.lerp b t).sub (n.scale r2), n, t⟩
  else info

/-- The blank result: shape.go:202, segment.go:102-103, polyshape.go:129. -/
def SegInfo.blank (b : V2 K) : SegInfo K := ⟨false, b, V2.zero, 1⟩

/-- segment.go:65-113 -/
def Segment.segmentQuery (M : Mth K) (s : Segment K) (a b : V2 K) (r2 : K) (info : SegInfo K) : SegInfo K :=
  let n := s.tn
  let d := (s.ta.sub a).dot n
  let r := s.radius + r2
  let flippedN := if d > 0 then n.neg else n
  let segOffset := (flippedN.scale r).sub a
  let segA := s.ta.add segOffset
  let segB := s.tb.add segOffset
  let delta := b.sub a
  if delta.cross segA * delta.cross segB ≤ 0 then
    let dOffset := if d > 0 then d - r else d + r
    let ad := -dOffset
    let bd := delta.dot n - dOffset
    if ad * bd < 0 then
      let t := ad / (ad - bd)
      ⟨true, (a.lerp b t).sub (flippedN.scale r2), flippedN, t⟩
    else info
  else if r ≠ 0 then
    let info1 := circleSegmentQuery M s.ta s.radius a b r2 (SegInfo.blank b)
    let info2 := circleSegmentQuery M s.tb s.radius a b r2 (SegInfo.blank b)
    if info1.alpha < info2.alpha then info1 else info2
  else info

/-- One plane of the first loop of `PolyShape.SegmentQuery`, polyshape.go:99-124; `prev` is the plane before.
`an = bn` is guarded: Go's quotient `d/0` is infinite or NaN. Infinity is rejected by `1 < t`, but NaN (`d = 0`)
passes that test and then fails `dtMin <= dt`. -/
def polyEdgeQuery (a b : V2 K) (rsum r2 : K) (prev pl : Plane K) (info : SegInfo K) : SegInfo K :=
  let n := pl.n
  let an := a.dot n
  let d := an - pl.v0.dot n - rsum
  if d < 0 then info else
  let bn := b.dot n
  let t := d / (an - bn)
  if an = bn ∨ t < 0 ∨ 1 < t then info else
  let point := a.lerp b t
  let dt := n.cross point
  let dtMin := n.cross prev.v0
  let dtMax := n.cross pl.v0
  if dtMin ≤ dt ∧ dt ≤ dtMax then ⟨true, point.sub (n.scale r2), n, t⟩ else info

/-- polyshape.go:99-124 -/
def polyEdgesQuery (a b : V2 K) (rsum r2 : K) : Plane K → List (Plane K) → SegInfo K → SegInfo K
  | _, [], info => info
  | prev, pl :: l, info => polyEdgesQuery a b rsum r2 pl l (polyEdgeQuery a b rsum r2 prev pl info)

/-- polyshape.go:128-134 -/
def polyVertsQuery (M : Mth K) (r : K) (a b : V2 K) (r2 : K) : List (Plane K) → SegInfo K → SegInfo K
  | [], info => info
  | pl :: l, info =>
    let ci := circleSegmentQuery M pl.v0 r a b r2 (SegInfo.blank b)
    polyVertsQuery M r a b r2 l (if ci.alpha < info.alpha then ci else info)

/-- polyshape.go:93-136 -/
def Poly.segmentQuery (M : Mth K) (ps : Poly K) (a b : V2 K) (r2 : K) (info : SegInfo K) : SegInfo K :=
  let rsum := ps.radius + r2
  let info := polyEdgesQuery a b rsum r2 (ps.world.getLastD ⟨V2.zero, V2.zero⟩) ps.world info
  if rsum > 0 then polyVertsQuery M ps.radius a b r2 ps.world info else info

/-- The method of the class: circle.go:36-38, segment.go:65, polyshape.go:93. -/
def Cls.segmentQueryRaw (M : Mth K) : Cls K → V2 K → V2 K → K → SegInfo K → SegInfo K
  | .circle c, a, b, r, i => circleSegmentQuery M c.tc c.radius a b r i
  | .segment s, a, b, r, i => s.segmentQuery M a b r i
  | .poly p, a, b, r, i => p.segmentQuery M a b r i

/-- shape.go:201-220 -/
def Cls.segmentQuery (M : Mth K) (inf eps : K) (s : Cls K) (a b : V2 K) (radius : K) : SegInfo K :=
  let nearest := s.pointQuery M inf eps a
  if nearest.dist ≤ radius then { SegInfo.blank b with hit := true, alpha := 0, normal := (a.sub nearest.point).unit M }
  else s.segmentQueryRaw M a b radius (SegInfo.blank b)

/-! ## Nearest shape -/

/-- A shape as seen by the queries: shape.go:19-39. -/
structure QShape (K : Type) where
  cls : Cls K
  bb : BB K
  filter : ShapeFilter
  sensor : Bool
deriving DecidableEq

/-- The pair (shape, info) kept by `PointQueryNearest`. -/
abbrev Nearest (K : Type) := Option (QShape K) × PointInfo K

/-- space.go:1219-1230 -/
def nearestVisit (M : Mth K) (inf eps : K) (point : V2 K) (filter : ShapeFilter) (out : Nearest K) (s : QShape K) :
    Nearest K :=
  if !s.filter.reject filter && !s.sensor then
    let info := s.cls.pointQuery M inf eps point
    if info.dist < out.2.dist then (some s, info) else out
  else out

/-- The box of space.go:937. -/
def nearestBox (point : V2 K) (maxDistance : K) : BB K := BB.forCircle point (max maxDistance 0)

/-- space.go:933-942; `dyn` and `stat` are the shapes the two indexes report for `nearestBox`, in the order
in which they report them. -/
def pointQueryNearest (M : Mth K) (inf eps : K) (point : V2 K) (maxDistance : K) (filter : ShapeFilter)
    (dyn stat : List (QShape K)) : Nearest K :=
  stat.foldl (nearestVisit M inf eps point filter)
    (dyn.foldl (nearestVisit M inf eps point filter) (none, ⟨V2.zero, maxDistance, V2.zero⟩))

end

/-! ## Moments, areas, centroids -/

section
variable {K : Type} [Field K] [LinearOrder K]

/-- shape_factory.go:132-134 -/
def momentForBox (mass w h : K) : K := mass * (w * w + h * h) / 12

/-- shape_factory.go:137-144 -/
def momentForBox2 (mass : K) (bb : BB K) : K :=
  momentForBox mass (bb.R - bb.L) (bb.T - bb.B) + mass * ((⟨bb.L + bb.R, bb.B + bb.T⟩ : V2 K).scale (1/2)).lengthSq

/-- shape_factory.go:153-155 -/
def momentForCircle (mass d1 d2 : K) (offset : V2 K) : K := mass * (1/2 * (d1 * d1 + d2 * d2) + offset.lengthSq)

/-- shape_factory.go:159-161; `math.Pow(x, 2)` is `x²`. -/
def momentForCircle2 (mass radius : K) : K := 1/2 * mass * (radius * 2) ^ 2

/-- shape_factory.go:166-170 -/
def momentForSegment (M : Mth K) (mass : K) (a b : V2 K) (radius : K) : K :=
  let offset := a.lerp b (1/2)
  let length := (b.sub a).mag M + 2 * radius
  mass * ((length * length + 4 * radius * radius) / 12 + offset.lengthSq)

/-- The pairs `(verts[i], verts[(i+1)%count])` in the order of the loops of shape_factory.go:183-235. -/
def edgesOf (verts : List (V2 K)) : List (V2 K × V2 K) := verts.zip (verts.rotate 1)

/-- shape_factory.go:176-195 -/
def momentForPoly (M : Mth K) (mass : K) (verts : List (V2 K)) (offset : V2 K) : K :=
  match verts with
  | [a, b] => momentForSegment M mass a b 0
  | _ =>
    let s := (edgesOf verts).foldl (fun (s : K × K) e =>
      let v1 := e.1.add offset
      let v2 := e.2.add offset
      let a := v2.cross v1
      let b := v1.dot v1 + v1.dot v2 + v2.dot v2
      (s.1 + a * b, s.2 + a)) (0, 0)
    (mass * s.1) / (6 * s.2)

/-- shape_factory.go:200-202; `pi` is `math.Pi`. -/
def areaForCircle (pi r1 r2 : K) : K := pi * |r1 * r1 - r2 * r2|

/-- shape_factory.go:205-207 -/
def areaForSegment (M : Mth K) (pi : K) (a b : V2 K) (r : K) : K := r * (pi * r + 2 * (a.sub b).mag M)

/-- shape_factory.go:212-224 -/
def areaForPoly (M : Mth K) (pi : K) (verts : List (V2 K)) (r : K) : K :=
  let s := (edgesOf verts).foldl (fun (s : K × K) e => (s.1 + e.1.cross e.2, s.2 + (e.1.sub e.2).mag M)) (0, 0)
  r * (pi * |r| + s.2) + s.1 / 2

/-- shape_factory.go:227-241 -/
def centroidForPoly (verts : List (V2 K)) : V2 K :=
  let s := (edgesOf verts).foldl (fun (s : K × V2 K) e =>
    let cross := e.1.cross e.2
    (s.1 + cross, s.2.add ((e.1.add e.2).scale cross))) (0, V2.zero)
  s.2.scale (1 / (3 * s.1))

/-- `ShapeMassInfo`: everything.go:136-140. -/
@[ext] structure ShapeMass (K : Type) where
  m : K
  i : K
  area : K
  cog : V2 K
deriving DecidableEq

/-- circle.go:40-47 -/
def circleMassInfo (pi mass radius : K) (center : V2 K) : ShapeMass K :=
  ⟨mass, momentForCircle 1 0 radius V2.zero, areaForCircle pi 0 radius, center⟩

/-- segment.go:161-168 -/
def segmentMassInfo (M : Mth K) (pi mass : K) (a b : V2 K) (r : K) : ShapeMass K :=
  ⟨mass, momentForBox 1 ((a.sub b).mag M + 2 * r) (2 * r), areaForSegment M pi a b r, a.lerp b (1/2)⟩

/-- polyshape.go:290-298 -/
def polyMassInfo (M : Mth K) (pi mass : K) (verts : List (V2 K)) (r : K) : ShapeMass K :=
  let centroid := centroidForPoly verts
  ⟨mass, momentForPoly M 1 verts centroid.neg, areaForPoly M pi verts r, centroid⟩

end
end Cm
