import Verif.Model.World
/-! # Queries of the whole simulation -/
namespace Cm
variable {K : Type} [Zero K] [One K] [Add K] [Sub K] [Mul K] [Div K] [Neg K] [NatCast K] [LinearOrder K]

/-- `Space.BBQuery`: space.go:944-958, the shapes on which the function of the user is called. -/
def World.bbQuery (sc : Scene K) (w : World K) (q : BB K) (filter : ShapeFilter) : List Nat :=
  BBTree.spaceBBQuery w.tree q filter (fun i => (w.shapes i).bb) fun i => (sc.figs i).filter

/-- `NearestPointQueryNearest`: space.go:1219-1230. -/
def World.nearestVisit (M : Mth K) (eps : K) (sc : Scene K) (w : World K) (p : V2 K) (filter : ShapeFilter) (out : Option Nat × PointInfo K) (i : Nat) :
    Option Nat × PointInfo K :=
  if !(sc.figs i).filter.reject filter && !(sc.figs i).sensor then
    let info := (w.shapes i).cls.pointQuery M sc.par.inf eps p
    if info.dist < out.2.dist then (some i, info) else out
  else out

/-- `Space.PointQueryNearest`: space.go:933-942. -/
def World.nearest (M : Mth K) (eps : K) (sc : Scene K) (w : World K) (p : V2 K) (maxDistance : K) (filter : ShapeFilter) : Option Nat × PointInfo K :=
  let box := nearestBox p maxDistance
  let out := (BBTree.queryRoot box w.tree.dyn).foldl (w.nearestVisit M eps sc p filter) (none, ⟨V2.zero, maxDistance, V2.zero⟩)
  (BBTree.queryRoot box w.tree.stat).foldl (w.nearestVisit M eps sc p filter) out

/-- A hit of a ray cast on one shape: the condition and the fraction of space.go:1232-1256. Sensors are looked at by `SegmentQuery` and passed over by
`SegmentQueryFirst`. -/
def World.rayHit (M : Mth K) (eps : K) (sc : Scene K) (w : World K) (sensors : Bool) (a b : V2 K) (radius : K) (filter : ShapeFilter) (i : Nat) : Option K :=
  if !(sc.figs i).filter.reject filter && (sensors || !(sc.figs i).sensor) then
    let info := (w.shapes i).cls.segmentQuery M sc.par.inf eps a b radius
    if info.hit then some info.alpha else none
  else none

/-- `Space.SegmentQueryFirst`: space.go:978-984. -/
def World.rayFirst (M : Mth K) (eps : K) (sc : Scene K) (w : World K) (a b : V2 K) (radius : K) (filter : ShapeFilter) : BBTree.Out K :=
  BBTree.segmentQueryFirst sc.par.inf w.tree a b (w.rayHit M eps sc false a b radius filter)

/-- `Space.SegmentQuery`: space.go:968-976, the shapes and fractions on which the function of the user is called. -/
def World.rayAll (M : Mth K) (eps : K) (sc : Scene K) (w : World K) (a b : V2 K) (radius : K) (filter : ShapeFilter) : List (Nat × K) :=
  BBTree.segmentQueryAll sc.par.inf w.tree a b (w.rayHit M eps sc true a b radius filter)

end Cm
