import Verif.Model.Shapes
import Verif.Model.SpaceEach

/-!
# Drawing

What is drawn is a list of calls of the drawer, without colours and user data.
-/

namespace Cm
namespace Draw

variable {K : Type} [Field K] [LinearOrder K]

/-- A call of a method of `IDrawer`: idrawer.go:22-26. -/
inductive Call (K : Type) where
  | circle (pos : V2 K) (angle radius : K)
  | segment (a b : V2 K)
  | fatSegment (a b : V2 K) (radius : K)
  | polygon (verts : List (V2 K)) (radius : K)
  | dot (size : K) (pos : V2 K)
deriving DecidableEq

/-- `DrawShape`: idrawer.go:37-65. -/
def drawShape (angle : K) : Cls K → Call K
  | .circle c => .circle c.tc angle c.radius
  | .segment s => .fatSegment s.ta s.tb s.radius
  | .poly p => .polygon (p.world.map Plane.v0) p.radius

/-- `springVerts`: idrawer.go:67-83. -/
def springVerts : List (V2 K) :=
  [⟨0, 0⟩, ⟨1/5, 0⟩, ⟨1/4, 3⟩, ⟨3/10, -6⟩, ⟨7/20, 6⟩, ⟨2/5, -6⟩, ⟨9/20, 6⟩, ⟨1/2, -6⟩, ⟨11/20, 6⟩, ⟨3/5, -6⟩, ⟨13/20, 6⟩, ⟨7/10, -3⟩, ⟨3/4, 6⟩, ⟨4/5, 0⟩, ⟨1, 0⟩]

/-- What is drawn of a joint depends on its class and anchors: the cases of idrawer.go:93-159. -/
inductive Look (K : Type) where
  | pin (a b : V2 K)
  | slide (a b : V2 K)
  | pivot (a b : V2 K)
  | groove (a b c : V2 K)
  | spring (a b : V2 K)
  /-- gear, motor, rotary spring, rotary limit, ratchet: idrawer.go:155-159 -/
  | hidden

/-- One corner of the line drawn for a spring: idrawer.go:137-149. -/
def springPoint (M : Mth K) (a b v : V2 K) : V2 K :=
  let delta := b.sub a
  let s := 1 / delta.mag M
  let r1 : V2 K := ⟨delta.x, (-delta.y) * s⟩
  let r2 : V2 K := ⟨delta.y, delta.x * s⟩
  ⟨v.dot r1 + a.x, v.dot r2 + a.y⟩

/-- The loop idrawer.go:151-153. -/
def polyline : List (V2 K) → List (Call K)
  | a :: b :: l => .segment a b :: polyline (b :: l)
  | _ => []

/-- `DrawConstraint`: idrawer.go:86-163; `ta` and `tb` are the transforms of the bodies. -/
def drawJoint (M : Mth K) (ta tb : Transform K) : Look K → List (Call K)
  | .pin a b => [.dot 5 (ta.apply a), .dot 5 (tb.apply b), .segment (ta.apply a) (tb.apply b)]
  | .slide a b => [.dot 5 (ta.apply a), .dot 5 (tb.apply b), .segment (ta.apply a) (tb.apply b)]
  | .pivot a b => [.dot 5 (ta.apply a), .dot 5 (tb.apply b)]
  | .groove a b c => [.dot 5 (tb.apply c), .segment (ta.apply a) (ta.apply b)]
  | .spring a b => [.dot 5 (ta.apply a), .dot 5 (tb.apply b)] ++ polyline (springVerts.map (springPoint M (ta.apply a) (tb.apply b)))
  | .hidden => []

/-- One collision: its normal, the positions of its bodies, and the arms of its contacts. -/
structure Hit (K : Type) where
  n : V2 K
  posA : V2 K
  posB : V2 K
  arms : List (V2 K × V2 K)

/-- The loop idrawer.go:181-192. -/
def drawHit (h : Hit K) : List (Call K) :=
  h.arms.map fun r => .segment ((h.posA.add r.1).add (h.n.scale (-2))) ((h.posB.add r.2).add (h.n.scale 2))

/-- What the drawer sees of the objects of a space. -/
structure View (K : Type) where
  shape : Nat → K × Cls K
  joint : Nat → Transform K × Transform K × Look K
  hit : Nat → Hit K

/-- `DrawSpace`: idrawer.go:166-193. The walks over the indexes are in the order of the lists. `_flags` is what `Flags` of the drawer would
give: it is not called. -/
def drawSpace (M : Mth K) (_flags : Nat) (v : View K) (s : Sp.St K) : List (Call K) :=
  (s.dynIdx.map fun x => drawShape (v.shape x).1 (v.shape x).2) ++ (s.statIdx.map fun x => drawShape (v.shape x).1 (v.shape x).2) ++
    (s.cons.flatMap fun c => drawJoint M (v.joint c).1 (v.joint c).2.1 (v.joint c).2.2) ++ (s.arbiters.flatMap fun r => drawHit (v.hit r))

end Draw
end Cm
