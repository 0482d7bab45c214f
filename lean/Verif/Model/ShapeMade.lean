import Verif.Model.Shapes
import Verif.Model.Hull
import Verif.Model.Body
/-!
# Making shapes and changing their masses: shape_factory.go, shape.go, body.go

A body with its list of shapes. Waking the body (`Activate`, shape.go:82, 94) and the space's indexes are not part of this model.
-/
namespace Cm
variable {K : Type}

section
variable [Field K] [LinearOrder K]

/-- `NewPolyShape`: shape_factory.go:99-111 (no points is a panic, here `none`). -/
def newPoly (M : Mth K) (verts : List (V2 K)) (t : Transform K) (r : K) : Option (Poly K) :=
  (hullVerts M (verts.map t.apply)).map fun h => Poly.new M h r

/-- `NewBoxShape2`: shape_factory.go:62-72. -/
def newBox2 (M : Mth K) (bb : BB K) (r : K) : Poly K := Poly.new M (boxVerts bb) r

/-- `NewBoxShape`: shape_factory.go:40-53. -/
def newBox (M : Mth K) (w h r : K) : Poly K := newBox2 M ⟨-(w / 2), -(h / 2), w / 2, h / 2⟩ r

/-- The part of `Shape` the masses depend on: everything.go:136-140, shape.go:14-45. -/
structure MShape (K : Type) where
  cls : Cls K
  info : ShapeMass K

/-- The mass information computed from the geometry: circle.go:40-47, segment.go:161-168, polyshape.go:290-298. -/
def Cls.massInfo (M : Mth K) (pi m : K) : Cls K → ShapeMass K
  | .circle c => circleMassInfo pi m c.radius c.c
  | .segment s => segmentMassInfo M pi m s.a s.b s.radius
  | .poly p => polyMassInfo M pi m (p.loc.map Plane.v0) p.radius

/-- `NewCircleShape`: shape_factory.go:82-90. -/
def MShape.circle (M : Mth K) (pi r : K) (offset : V2 K) : MShape K := ⟨.circle (Circle.new r offset), circleMassInfo pi 0 r offset⟩
/-- `NewSegmentShape`: shape_factory.go:17-30. -/
def MShape.segment (M : Mth K) (pi : K) (a b : V2 K) (r : K) : MShape K := ⟨.segment (Segment.new M a b r), segmentMassInfo M pi 0 a b r⟩
/-- `NewPolyShapeRaw`: shape_factory.go:115-129. -/
def MShape.polyRaw (M : Mth K) (pi : K) (verts : List (V2 K)) (r : K) : MShape K := ⟨.poly (Poly.new M verts r), polyMassInfo M pi 0 verts r⟩

/-- A body and the shapes in `body.Shapes`, by their identities. -/
structure Owner (K : Type) where
  body : Body K
  shapes : List (Nat × MShape K)

namespace Owner

/-- What `AccumulateMassFromShapes` reads: body.go:242-244. -/
def masses (l : List (Nat × MShape K)) : List (MassInfo K) := l.map fun s => ⟨s.2.info.m, s.2.info.i, s.2.info.cog⟩

/-- body.go:230-258 -/
def accumulate (M : Mth K) (inf : K) (o : Owner K) : Owner K := { o with body := o.body.accumulate M inf (masses o.shapes) }

/-- `AttachShape`: body.go:436-441. -/
def attach (M : Mth K) (inf : K) (o : Owner K) (k : Nat) (s : MShape K) : Owner K :=
  let o := { o with shapes := o.shapes ++ [(k, s)] }
  if s.info.m > 0 then o.accumulate M inf else o

/-- Deleting by moving the last one into the gap: body.go:547-556. -/
def swapRemove {α : Type} (i : Nat) (l : List α) : List α :=
  match l.getLast? with
  | some z => (l.set i z).dropLast
  | none => []

/-- `RemoveShape`: body.go:546-560, for a shape of the body. -/
def remove (M : Mth K) (inf : K) (o : Owner K) (k : Nat) : Owner K :=
  match o.shapes.findIdx? (fun s => s.1 = k), o.shapes.find? (fun s => s.1 = k) with
  | some i, some s =>
    let o := { o with shapes := swapRemove i o.shapes }
    if o.body.type inf = .dynamic ∧ s.2.info.m > 0 then o.accumulate M inf else o
  | _, _ => o

/-- Changing one shape. -/
def change (k : Nat) (f : MShape K → MShape K) (l : List (Nat × MShape K)) : List (Nat × MShape K) :=
  l.map fun s => if s.1 = k then (s.1, f s.2) else s

/-- `Shape.SetMass`: shape.go:94-98; `body.go:230` returns at once for bodies that are not dynamic. -/
def setMass (M : Mth K) (inf : K) (o : Owner K) (k : Nat) (m : K) : Owner K :=
  accumulate M inf { o with shapes := change k (fun s => { s with info := { s.info with m := m } }) o.shapes }

/-- `Shape.SetDensity`: shape.go:104-106. -/
def setDensity (M : Mth K) (inf : K) (o : Owner K) (k : Nat) (d : K) : Owner K :=
  match o.shapes.find? (fun s => s.1 = k) with
  | some s => o.setMass M inf k (d * s.2.info.area)
  | none => o

/-- The common shape of `Circle.SetRadius` (circle.go:53-61), `Segment.SetRadius` (segment.go:115-123), `Segment.SetEndpoints`
(segment.go:137-147) and `SetVertsRaw` (polyshape.go:175-182): new geometry, new mass information with the old mass, and a
new sum if the shape has mass. -/
def reshape (M : Mth K) (inf pi : K) (o : Owner K) (k : Nat) (g : Cls K → Cls K) : Owner K :=
  match o.shapes.find? (fun s => s.1 = k) with
  | some s =>
    let o := { o with shapes := change k (fun s => ⟨g s.cls, (g s.cls).massInfo M pi s.info.m⟩) o.shapes }
    if s.2.info.m > 0 then o.accumulate M inf else o
  | none => o

/-- circle.go:54, segment.go:116 -/
def withRadius (r : K) : Cls K → Cls K
  | .circle c => .circle { c with radius := r }
  | .segment s => .segment { s with radius := r }
  | .poly p => .poly p

/-- segment.go:138-140 -/
def withEndpoints (M : Mth K) (a b : V2 K) : Cls K → Cls K
  | .segment s => .segment (s.setEndpoints M a b)
  | c => c

/-- polyshape.go:150-162 -/
def withVerts (M : Mth K) (verts : List (V2 K)) : Cls K → Cls K
  | .poly p => .poly (p.setVerts M verts)
  | c => c

/-- What a client can do to a body and its shapes. `verts` is the exported `SetVerts` (polyshape.go:150), which leaves the mass
information alone; `vertsHull` is `SetVertsUnsafe` (polyshape.go:164-173). -/
inductive Op (K : Type) where
  | attachCircle (k : Nat) (r : K) (offset : V2 K)
  | attachSegment (k : Nat) (a b : V2 K) (r : K)
  | attachPoly (k : Nat) (verts : List (V2 K)) (r : K)
  | remove (k : Nat)
  | setMass (k : Nat) (m : K)
  | setDensity (k : Nat) (d : K)
  | setRadius (k : Nat) (r : K)
  | setEndpoints (k : Nat) (a b : V2 K)
  | vertsRaw (k : Nat) (verts : List (V2 K))
  | vertsHull (k : Nat) (verts : List (V2 K)) (t : Transform K)
  | verts (k : Nat) (verts : List (V2 K))
  | setType (t : BodyType)
  | move (op : Body.Op K)

/-- One call. `move` stands for the calls on the body that set no mass. -/
def step (M : Mth K) (inf pi : K) (o : Owner K) : Op K → Owner K
  | .attachCircle k r c => o.attach M inf k (MShape.circle M pi r c)
  | .attachSegment k a b r => o.attach M inf k (MShape.segment M pi a b r)
  | .attachPoly k vs r => o.attach M inf k (MShape.polyRaw M pi vs r)
  | .remove k => o.remove M inf k
  | .setMass k m => o.setMass M inf k m
  | .setDensity k d => o.setDensity M inf k d
  | .setRadius k r => o.reshape M inf pi k (withRadius r)
  | .setEndpoints k a b => o.reshape M inf pi k (withEndpoints M a b)
  | .vertsRaw k vs => o.reshape M inf pi k (withVerts M vs)
  | .vertsHull k vs t => match hullVerts M (vs.map t.apply) with
    | some h => o.reshape M inf pi k (withVerts M h)
    | none => o
  | .verts k vs => { o with shapes := change k (fun s => { s with cls := withVerts M vs s.cls }) o.shapes }
  | .setType t => { o with body := o.body.setType M inf t (masses o.shapes) }
  | .move op => { o with body := o.body.step M inf op }

def run (M : Mth K) (inf pi : K) (o : Owner K) (ops : List (Op K)) : Owner K := ops.foldl (step M inf pi) o

end Owner
end
end Cm
