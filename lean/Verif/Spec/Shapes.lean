import Verif.Model.Shapes
import Verif.Props.BB
/-! # Specification of shapes as sets of points -/
namespace Cm.Spec
variable {K : Type} [Field K] [LinearOrder K]

/-- The point lies on the segment from `a` to `b`. -/
def OnSegment (a b x : V2 K) : Prop := ∃ t, 0 ≤ t ∧ t ≤ 1 ∧ x = At a b t

/-- The convex hull of a list of points: the points themselves and everything between two points of the hull. -/
inductive Hull (l : List (V2 K)) : V2 K → Prop
  | vert (v : V2 K) : v ∈ l → Hull l v
  | mix (p q : V2 K) (t : K) : Hull l p → Hull l q → 0 ≤ t → t ≤ 1 → Hull l (At p q t)

/-- The skeleton of a shape in the coordinates of its body: the centre, the segment, the polygon without rounding. -/
def LocalCore : Cls K → V2 K → Prop
  | .circle c, x => x = c.c
  | .segment s, x => OnSegment s.a s.b x
  | .poly p, x => Hull (p.loc.map Plane.v0) x

/-- The skeleton of a shape in world coordinates, as last cached. -/
def Core : Cls K → V2 K → Prop
  | .circle c, x => x = c.tc
  | .segment s, x => OnSegment s.ta s.tb x
  | .poly p, x => Hull (p.world.map Plane.v0) x

/-- The (rounding) radius of a shape. -/
def radiusOf : Cls K → K
  | .circle c => c.radius
  | .segment s => s.radius
  | .poly p => p.radius

/-- The points of a shape in world coordinates: at most the radius away from the skeleton. -/
def InShape (s : Cls K) (x : V2 K) : Prop := ∃ q, Core s q ∧ dist2 x q ≤ radiusOf s * radiusOf s

/-- The points of a shape in the coordinates of its body. -/
def InLocalShape (s : Cls K) (x : V2 K) : Prop := ∃ q, LocalCore s q ∧ dist2 x q ≤ radiusOf s * radiusOf s

/-- A rigid motion: rotation by `rot` and translation. -/
def Rigid (t : Transform K) : Prop := t.a ^ 2 + t.b ^ 2 = 1 ∧ t.c = -t.b ∧ t.d = t.a

end Cm.Spec
