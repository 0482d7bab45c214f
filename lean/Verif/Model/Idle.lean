import Verif.Model.Body
/-! # When a body counts as idle -/
namespace Cm
variable {K : Type} [Zero K] [One K] [Add K] [Sub K] [Mul K] [Div K] [Neg K] [NatCast K] [LinearOrder K]

/-- space.go:453-459: the square of the speed up to which a body is idle. -/
def idleSpeedSq (idleSpeed : K) (g : V2 K) (dt : K) : K :=
  if idleSpeed ≠ 0 then idleSpeed * idleSpeed else g.dot g * dt * dt

/-- space.go:467-472: the body is too fast to be idle. -/
def Body.tooFast (dvsq : K) (b : Body K) : Bool :=
  let keThreshold := if dvsq ≠ 0 then b.m * dvsq else 0
  decide (b.kineticEnergy > keThreshold)

end Cm
