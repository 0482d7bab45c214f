import Verif.Model.Solver
/-! # Joint constructors

The numeric fields of new joints. `nil` bodies, which the constructors of pin, pivot and ratchet joints allow for but no other method
does, are not modelled. -/
namespace Cm
variable {K : Type} [Zero K] [One K] [Add K] [Sub K] [Mul K] [Div K] [Neg K] [NatCast K] [LinearOrder K]

/-- constraint.go:33-48 -/
def JointCfg.new (M : Mth K) (inf : K) : JointCfg K := ⟨inf, M.pow (9 / 10) 60, inf⟩

/-- pin_joint.go:18-44 -/
def PinJoint.new (M : Mth K) (inf : K) (a b : Body K) (anchorA anchorB : V2 K) : PinJoint K :=
  { JointCfg.new M inf with
    anchorA := anchorA, anchorB := anchorB, dist := ((b.tr.apply anchorB).sub (a.tr.apply anchorA)).mag M,
    r1 := V2.zero, r2 := V2.zero, n := V2.zero, nMass := 0, jnAcc := 0, bias := 0 }

/-- slide_joint.go:21-31 -/
def SlideJoint.new (M : Mth K) (inf : K) (anchorA anchorB : V2 K) (min max : K) : SlideJoint K :=
  { JointCfg.new M inf with
    anchorA := anchorA, anchorB := anchorB, min := min, max := max,
    r1 := V2.zero, r2 := V2.zero, n := V2.zero, nMass := 0, jnAcc := 0, bias := 0 }

/-- pivot_joint.go:34-43 -/
def PivotJoint.new2 (M : Mth K) (inf : K) (anchorA anchorB : V2 K) : PivotJoint K :=
  { JointCfg.new M inf with
    anchorA := anchorA, anchorB := anchorB, r1 := V2.zero, r2 := V2.zero, k := ⟨0, 0, 0, 0⟩, jAcc := V2.zero, bias := V2.zero }

/-- pivot_joint.go:15-32 -/
def PivotJoint.new (M : Mth K) (inf : K) (a b : Body K) (pivot : V2 K) : PivotJoint K :=
  PivotJoint.new2 M inf (a.worldToLocal pivot) (b.worldToLocal pivot)

/-- groove_joint.go:19-29 -/
def GrooveJoint.new (M : Mth K) (inf : K) (grooveA grooveB anchorB : V2 K) : GrooveJoint K :=
  { JointCfg.new M inf with
    grooveA := grooveA, grooveB := grooveB, grooveN := ((grooveB.sub grooveA).unit M).perp, anchorB := anchorB,
    grooveTn := V2.zero, clamp := 0, r1 := V2.zero, r2 := V2.zero, k := ⟨0, 0, 0, 0⟩, jAcc := V2.zero, bias := V2.zero }

/-- ratchet_joint.go:13-26 -/
def RatchetJoint.new (M : Mth K) (inf : K) (a b : Body K) (phase ratchet : K) : RatchetJoint K :=
  { JointCfg.new M inf with angle := b.angle - a.angle, phase := phase, ratchet := ratchet, iSum := 0, bias := 0, jAcc := 0 }

/-- rotary_limit_joint.go:13-20 -/
def RotaryLimitJoint.new (M : Mth K) (inf : K) (min max : K) : RotaryLimitJoint K :=
  { JointCfg.new M inf with min := min, max := max, iSum := 0, bias := 0, jAcc := 0 }

/-- simple_motor.go:13-19 -/
def SimpleMotor.new (M : Mth K) (inf : K) (rate : K) : SimpleMotor K :=
  { JointCfg.new M inf with rate := rate, iSum := 0, jAcc := 0 }

/-- damped_spring.go:27-39 -/
def DampedSpring.new (anchorA anchorB : V2 K) (restLength stiffness damping : K) : DampedSpring K :=
  { anchorA := anchorA, anchorB := anchorB, damping := damping, forceFn := DampedSpring.defaultForce restLength stiffness,
    targetVrn := 0, vCoef := 0, r1 := V2.zero, r2 := V2.zero, nMass := 0, n := V2.zero, jAcc := 0 }

/-- damped_rotary_spring.go:19-28 -/
def DampedRotarySpring.new (restAngle stiffness damping : K) : DampedRotarySpring K :=
  { damping := damping, torqueFn := DampedRotarySpring.defaultTorque restAngle stiffness, targetWrn := 0, wCoef := 0, iSum := 0, jAcc := 0 }

end Cm
