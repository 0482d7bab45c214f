import Verif.Model.Vec
/-!
# Rigid bodies: kinematics and mass

`float64` is an ordered field `K`; Go's `math` functions are a parameter `Mth K`, whose laws are
`Mth.Lawful`. The intrusive lists, `Space`, `UserData` and sleeping links of `Body` are modelled in the
files about the space; here `Activate` has no effect.
-/
namespace Cm

/-- The functions of Go's package `math` used by the solver. -/
structure Mth (K : Type) where
  sqrt : K → K
  cos : K → K
  sin : K → K
  exp : K → K
  pow : K → K → K
  floor : K → K

/-- The laws of `Mth` used in the proofs. -/
structure Mth.Lawful {K : Type} [Field K] [LinearOrder K] (M : Mth K) : Prop where
  sqrt_nonneg : ∀ x, 0 ≤ x → 0 ≤ M.sqrt x
  sqrt_sq : ∀ x, 0 ≤ x → M.sqrt x * M.sqrt x = x
  cos_sin : ∀ x, M.cos x ^ 2 + M.sin x ^ 2 = 1
  exp_pos : ∀ x, 0 < M.exp x
  exp_le : ∀ x, x ≤ 0 → M.exp x ≤ 1
  pow_nonneg : ∀ e t, 0 ≤ e → 0 ≤ M.pow e t
  pow_le : ∀ e t, 0 ≤ e → e ≤ 1 → 0 ≤ t → M.pow e t ≤ 1
  floor_le : ∀ x, M.floor x ≤ x
  lt_floor : ∀ x, x < M.floor x + 1

section
variable {K : Type} [Zero K] [One K] [Add K] [Sub K] [Mul K] [Div K] [Neg K] [NatCast K] [LinearOrder K]

/-- `Vec2.Mag` -/
def V2.mag (M : Mth K) (v : V2 K) : K := M.sqrt v.lengthSq
/-- `Vec2.Unit`; the zero vector stays zero, as in the package, which adds the least positive float
to the denominator. -/
def V2.unit (M : Mth K) (v : V2 K) : V2 K := v.scale (1 / v.mag M)
/-- `Vec2.ClampMag` -/
def V2.clampMag (M : Mth K) (v : V2 K) (max : K) : V2 K :=
  if v.dot v > max * max then (v.unit M).scale max else v
/-- `Vec2.Project` -/
def V2.project (v n : V2 K) : V2 K := n.scale (v.dot n / n.dot n)

/-- `BodyType`: body.go:12-18 -/
inductive BodyType where
  | dynamic | kinematic | static
deriving DecidableEq, Repr

/-- `Body`: body.go:28-58, the numeric fields. -/
@[ext] structure Body (K : Type) where
  m : K
  mInv : K
  i : K
  iInv : K
  angle : K
  w : K
  torque : K
  cog : V2 K
  p : V2 K
  v : V2 K
  force : V2 K
  tr : Transform K
  idle : K
  vBias : V2 K
  wBias : K
deriving DecidableEq

/-- `ShapeMassInfo` as read by body.go:242-252. -/
@[ext] structure MassInfo (K : Type) where
  m : K
  i : K
  cog : V2 K
deriving DecidableEq

namespace Body

/-- body.go:219-227; `inf` is the constant `infinity`. -/
def type (inf : K) (b : Body K) : BodyType :=
  if b.idle = inf then .static else if b.m = inf then .kinematic else .dynamic

/-- body.go:358-366, the transform computed. -/
def mkTransform (M : Mth K) (c p : V2 K) (a : K) : Transform K :=
  let rot : V2 K := ⟨M.cos a, M.sin a⟩
  Transform.transpose rot.x (-rot.y) (p.x - (c.x * rot.x - c.y * rot.y))
    rot.y rot.x (p.y - (c.x * rot.y + c.y * rot.x))

/-- body.go:358-366 -/
def setTransform (M : Mth K) (b : Body K) (p : V2 K) (a : K) : Body K :=
  { b with tr := mkTransform M b.cog p a }

/-- body.go:102-106 -/
def setAngle (M : Mth K) (b : Body K) (a : K) : Body K :=
  setTransform M { b with angle := a } b.p a

/-- body.go:126-130 -/
def setMass (b : Body K) (m : K) : Body K := { b with m := m, mInv := 1 / m }
/-- body.go:114-118 -/
def setMoment (b : Body K) (i : K) : Body K := { b with i := i, iInv := 1 / i }

/-- The zero value of the struct with the identity transform (body.go:74-79). -/
def blank : Body K :=
  ⟨0, 0, 0, 0, 0, 0, 0, V2.zero, V2.zero, V2.zero, V2.zero, Transform.identity, 0, V2.zero, 0⟩

/-- body.go:73-85 -/
def new (M : Mth K) (mass moment : K) : Body K := setAngle M ((blank.setMass mass).setMoment moment) 0

/-- body.go:273-275 -/
def rotation (b : Body K) : V2 K := ⟨b.tr.a, b.tr.b⟩
/-- body.go:278-280 -/
def position (b : Body K) : V2 K := b.tr.apply V2.zero
/-- body.go:283-287 -/
def setPosition (M : Mth K) (b : Body K) (pos : V2 K) : Body K :=
  let p := (b.tr.applyVector b.cog).add pos
  setTransform M { b with p := p } p b.angle

/-- body.go:486-488 -/
def worldToLocal (b : Body K) (q : V2 K) : V2 K := b.tr.rigidInverse.apply q
/-- body.go:493-495 -/
def localToWorld (b : Body K) (q : V2 K) : V2 K := b.tr.apply q
/-- body.go:527-530 -/
def velocityAtLocal (b : Body K) (q : V2 K) : V2 K :=
  b.v.add ((b.tr.applyVector (q.sub b.cog)).perp.scale b.w)
/-- body.go:535-538 -/
def velocityAtWorld (b : Body K) (q : V2 K) : V2 K :=
  b.v.add ((q.sub (b.tr.apply b.cog)).perp.scale b.w)

/-- arbiter.go:334-338 -/
def applyImpulse (b : Body K) (j r : V2 K) : Body K :=
  { b with v := ⟨b.v.x + j.x * b.mInv, b.v.y + j.y * b.mInv⟩, w := b.w + b.iInv * r.cross j }
/-- body.go:512-517 -/
def applyImpulseAtWorld (b : Body K) (j q : V2 K) : Body K :=
  b.applyImpulse j (q.sub (b.tr.apply b.cog))
/-- body.go:520-522 -/
def applyImpulseAtLocal (b : Body K) (j q : V2 K) : Body K :=
  b.applyImpulseAtWorld (b.tr.applyVector j) (b.tr.apply q)
/-- body.go:498-504 -/
def applyForceAtWorld (b : Body K) (f q : V2 K) : Body K :=
  { b with force := b.force.add f, torque := b.torque + (q.sub (b.tr.apply b.cog)).cross f }
/-- body.go:507-509 -/
def applyForceAtLocal (b : Body K) (f q : V2 K) : Body K :=
  b.applyForceAtWorld (b.tr.applyVector f) (b.tr.apply q)

/-- One turn of the loop body.go:242-252. -/
def addShape (b : Body K) (s : MassInfo K) : Body K :=
  if s.m > 0 then
    let msum := b.m + s.m
    { b with i := b.i + (s.m * s.i + b.cog.distanceSq s.cog * (s.m * b.m) / msum),
             cog := b.cog.lerp s.cog (s.m / msum), m := msum }
  else b

/-- body.go:230-258 -/
def accumulate (M : Mth K) (inf : K) (b : Body K) (shapes : List (MassInfo K)) : Body K :=
  if b.type inf ≠ .dynamic then b
  else
    let pos := b.position
    let b1 := shapes.foldl addShape { b with m := 0, i := 0, cog := V2.zero }
    setPosition M { b1 with mInv := 1 / b1.m, iInv := 1 / b1.i } pos

/-- body.go:621-631 (and 309-322) -/
def updateVelocity (inf : K) (b : Body K) (g : V2 K) (damping dt : K) : Body K :=
  if b.type inf = .kinematic then b
  else
    { b with v := (b.v.scale damping).add ((g.add (b.force.scale b.mInv)).scale dt),
             w := b.w * damping + b.torque * b.iInv * dt,
             force := V2.zero, torque := 0 }

/-- body.go:634-641 -/
def updatePosition (M : Mth K) (b : Body K) (dt : K) : Body K :=
  let p := b.p.add ((b.v.add b.vBias).scale dt)
  let a := b.angle + (b.w + b.wBias) * dt
  { setTransform M { b with p := p, angle := a } p a with vBias := V2.zero, wBias := 0 }

/-- The numeric part of body.go:138-165; the space bookkeeping that follows is modelled elsewhere. -/
def setType (M : Mth K) (inf : K) (b : Body K) (t : BodyType) (shapes : List (MassInfo K)) : Body K :=
  if b.type inf = t then b
  else
    let b := { b with idle := if t = BodyType.static then inf else 0 }
    if t = BodyType.dynamic then
      accumulate M inf { b with m := 0, i := 0, mInv := inf, iInv := inf } shapes
    else { b with m := inf, i := inf, mInv := 0, iInv := 0, v := V2.zero, w := 0 }

/-- body.go:444-456 -/
def kineticEnergy (b : Body K) : K :=
  let vsq := b.v.dot b.v
  let wsq := b.w * b.w
  (if vsq ≠ 0 then vsq * b.m else 0) + (if wsq ≠ 0 then wsq * b.i else 0)

/-- The public operations on a body alone. -/
inductive Op (K : Type) where
  | setPosition (p : V2 K)
  | setAngle (a : K)
  | setVelocity (v : V2 K)
  | setAngularVelocity (w : K)
  | setForce (f : V2 K)
  | setTorque (t : K)
  | setMass (m : K)
  | setMoment (i : K)
  | setType (t : BodyType) (shapes : List (MassInfo K))
  | accumulate (shapes : List (MassInfo K))
  | applyImpulse (j q : V2 K)
  | applyForce (f q : V2 K)
  | updateVelocity (g : V2 K) (damping dt : K)
  | updatePosition (dt : K)

/-- The effect of one operation; `SetVelocity`, `SetForce` etc. are body.go:297-355. -/
def step (M : Mth K) (inf : K) (b : Body K) : Op K → Body K
  | .setPosition p => b.setPosition M p
  | .setAngle a => b.setAngle M a
  | .setVelocity v => { b with v := v }
  | .setAngularVelocity w => { b with w := w }
  | .setForce f => { b with force := f }
  | .setTorque t => { b with torque := t }
  | .setMass m => b.setMass m
  | .setMoment i => b.setMoment i
  | .setType t s => b.setType M inf t s
  | .accumulate s => b.accumulate M inf s
  | .applyImpulse j q => b.applyImpulseAtWorld j q
  | .applyForce f q => b.applyForceAtWorld f q
  | .updateVelocity g d dt => b.updateVelocity inf g d dt
  | .updatePosition dt => b.updatePosition M dt

/-- A history of operations. -/
def run (M : Mth K) (inf : K) (b : Body K) (ops : List (Op K)) : Body K := ops.foldl (step M inf) b

end Body
end
end Cm
