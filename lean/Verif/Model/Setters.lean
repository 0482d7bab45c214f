import Verif.Model.Space

/-!
# Changing shapes and joints of a space

The setters of shapes and joints change numbers that the model of the space does not have (friction, elasticity, filters, limits of joints).
What they do to the space is to wake bodies.
-/

namespace Cm
namespace Sp

variable {K : Type} [Zero K] [LT K] [DecidableRel (α := K) (· < ·)] [Add K] [DecidableEq K]

/-- `SetMass`, `SetDensity`, `SetCollisionType`, `SetFriction`, `SetElasticity`, `SetShapeFilter` of a shape: shape.go:94-98, shape.go:104-106,
shape.go:134-153. The assignments to fields not modelled are left out. -/
def setShapeField (s : St K) (x : Nat) : Option (St K) := activate s (s.sh x).body

/-- `SetSensor`: shape.go:80-83. -/
def setSensor (s : St K) (x : Nat) (v : Bool) : Option (St K) := (activate s (s.sh x).body).map fun s' => s'.setS x fun h => { h with sensor := v }

/-- `ActivateBodies`: constraint.go:50-53; and `SetMaxForce`, `SetMaxBias`, `SetErrorBias`, `SetCollideBodies`: constraint.go:65-71, constraint.go:77-83,
constraint.go:89-95, constraint.go:105-108, without the assignments to fields not modelled. -/
def setJointField (s : St K) (c : Nat) : Option (St K) := (activate s (s.cn c).a).bind fun s' => activate s' (s.cn c).b

/-- `SetMoment`, `SetMass`, `SetVelocity`, `SetVelocityVector`, `SetForce`, `SetTorque`, `SetAngularVelocity`, `SetPosition`, `SetAngle` of a body:
body.go:102-130, body.go:283-287, body.go:297-306, body.go:330-355, without the assignments to fields not modelled. -/
def setBodyField (s : St K) (b : Nat) : Option (St K) := activate s b

/-- `SetRadius` of circles and segments, `SetEndpoints`, `SetVerts`, `SetVertsUnsafe`, `SetVertsRaw`: circle.go:53-61, segment.go:115-123,
segment.go:137-147, polyshape.go:150-200. They change the shape and the mass of its body, nothing the model of the space has. -/
def setGeometry (s : St K) (_x : Nat) : Option (St K) := some s

end Sp
end Cm
