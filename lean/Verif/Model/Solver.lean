import Verif.Model.Body
/-!
# The impulse solver: contacts and joints

The two bodies of an arbiter or joint are two separate values: a constraint from a body to itself is not
modelled. `Arbiter.count` is the length of the list of contacts (arbiter.go:222-223; space.go sets both to
zero together).
-/
namespace Cm
variable {K : Type} [Zero K] [One K] [Add K] [Sub K] [Mul K] [Div K] [Neg K] [NatCast K] [LinearOrder K]

/-- arbiter.go:322-332 -/
def applyImpulses (a b : Body K) (r1 r2 j : V2 K) : Body K × Body K :=
  let b := { b with v := ⟨b.v.x + j.x * b.mInv, b.v.y + j.y * b.mInv⟩,
                    w := b.w + b.iInv * (r2.x * j.y - r2.y * j.x) }
  let j : V2 K := ⟨-j.x, -j.y⟩
  let a := { a with v := ⟨a.v.x + j.x * a.mInv, a.v.y + j.y * a.mInv⟩,
                    w := a.w + a.iInv * (r1.x * j.y - r1.y * j.x) }
  (a, b)

/-- arbiter.go:340-350 -/
def applyBiasImpulses (a b : Body K) (r1 r2 j : V2 K) : Body K × Body K :=
  let b := { b with vBias := ⟨b.vBias.x + j.x * b.mInv, b.vBias.y + j.y * b.mInv⟩,
                    wBias := b.wBias + b.iInv * (r2.x * j.y - r2.y * j.x) }
  let j : V2 K := ⟨-j.x, -j.y⟩
  let a := { a with vBias := ⟨a.vBias.x + j.x * a.mInv, a.vBias.y + j.y * a.mInv⟩,
                    wBias := a.wBias + a.iInv * (r1.x * j.y - r1.y * j.x) }
  (a, b)

/-- arbiter.go:352-354 -/
def relativeVelocity (a b : Body K) (r1 r2 : V2 K) : V2 K :=
  ((r2.perp.scale b.w).add b.v).sub ((r1.perp.scale a.w).add a.v)

/-- everything.go:257-259 -/
def normalRelativeVelocity (a b : Body K) (r1 r2 n : V2 K) : K := (relativeVelocity a b r1 r2).dot n

/-- everything.go:244-247 -/
def kScalarBody (b : Body K) (r n : V2 K) : K :=
  let rcn := r.cross n
  b.mInv + b.iInv * rcn * rcn

/-- everything.go:253-255 -/
def kScalar (a b : Body K) (r1 r2 n : V2 K) : K := kScalarBody a r1 n + kScalarBody b r2 n

/-- `Mat2x2`: everything.go:199-201 -/
structure Mat2x2 (K : Type) where
  a : K
  b : K
  c : K
  d : K
deriving DecidableEq

/-- `Mat2x2.Transform`: everything.go:204-206 -/
def Mat2x2.transform (m : Mat2x2 K) (v : V2 K) : V2 K := ⟨v.x * m.a + v.y * m.b, v.x * m.c + v.y * m.d⟩

/-- everything.go:261-301 -/
def kTensor (a b : Body K) (r1 r2 : V2 K) : Mat2x2 K :=
  let mSum := a.mInv + b.mInv
  let k11 := mSum + r1.y * r1.y * a.iInv + r2.y * r2.y * b.iInv
  let k12 := 0 + -r1.x * r1.y * a.iInv + -r2.x * r2.y * b.iInv
  let k21 := 0 + -r1.x * r1.y * a.iInv + -r2.x * r2.y * b.iInv
  let k22 := mSum + r1.x * r1.x * a.iInv + r2.x * r2.x * b.iInv
  let det := k11 * k22 - k12 * k21
  let detInv := 1 / det
  ⟨k22 * detInv, -k12 * detInv, -k21 * detInv, k11 * detInv⟩

/-- everything.go:303-305 -/
def biasCoef (M : Mth K) (errorBias dt : K) : K := 1 - M.pow errorBias dt

/-! ## Contacts -/

/-- `Contact`: everything.go:88-99 -/
@[ext] structure Contact (K : Type) where
  r1 : V2 K
  r2 : V2 K
  nMass : K
  tMass : K
  bounce : K
  jnAcc : K
  jtAcc : K
  jBias : K
  bias : K
  hash : Nat
deriving DecidableEq

/-- The states of an arbiter: everything.go:18-30. -/
inductive ArbState where
  | first | normal | ignore | cached | invalidated
deriving DecidableEq, Repr

/-- `Arbiter`: arbiter.go:16-31, the fields used by the solver. -/
@[ext] structure Arbiter (K : Type) where
  e : K
  u : K
  surfaceVr : V2 K
  normal : V2 K
  contacts : List (Contact K)
  state : ArbState
  swapped : Bool
deriving DecidableEq

namespace Arbiter

/-- The body of the loop arbiter.go:169-183. -/
def preStepContact (arb : Arbiter K) (a b : Body K) (dt slop bias : K) (con : Contact K) : Contact K :=
  let n := arb.normal
  let bodyDelta := b.p.sub a.p
  let dist := ((con.r2.sub con.r1).add bodyDelta).dot n
  { con with
    nMass := 1 / kScalar a b con.r1 con.r2 n
    tMass := 1 / kScalar a b con.r1 con.r2 n.perp
    bias := -bias * min 0 (dist + slop) / dt
    jBias := 0
    bounce := normalRelativeVelocity a b con.r1 con.r2 n * arb.e }

/-- arbiter.go:163-184 -/
def preStep (arb : Arbiter K) (a b : Body K) (dt slop bias : K) : Arbiter K :=
  { arb with contacts := arb.contacts.map (arb.preStepContact a b dt slop bias) }

/-- The loop arbiter.go:110-114. -/
def cachedLoop (n : V2 K) (dtCoef : K) : List (Contact K) → Body K → Body K → Body K × Body K
  | [], a, b => (a, b)
  | con :: cs, a, b =>
    let j := n.rotate ⟨con.jnAcc, con.jtAcc⟩
    let ab := applyImpulses a b con.r1 con.r2 (j.scale dtCoef)
    cachedLoop n dtCoef cs ab.1 ab.2

/-- arbiter.go:105-115 -/
def applyCachedImpulse (arb : Arbiter K) (a b : Body K) (dtCoef : K) : Body K × Body K :=
  if arb.state = .first then (a, b) else cachedLoop arb.normal dtCoef arb.contacts a b

/-- The body of the loop arbiter.go:124-156. -/
def contactStep (n surfaceVr : V2 K) (friction : K) (a b : Body K) (con : Contact K) :
    Body K × Body K × Contact K :=
  let vb1 := a.vBias.add (con.r1.perp.scale a.wBias)
  let vb2 := b.vBias.add (con.r2.perp.scale b.wBias)
  let vr := (relativeVelocity a b con.r1 con.r2).add surfaceVr
  let vbn := (vb2.sub vb1).dot n
  let vrn := vr.dot n
  let vrt := vr.dot n.perp
  let jbn := (con.bias - vbn) * con.nMass
  let jBias := max (con.jBias + jbn) 0
  let jn := -(con.bounce + vrn) * con.nMass
  let jnAcc := max (con.jnAcc + jn) 0
  let jtMax := friction * jnAcc
  let jt := -vrt * con.tMass
  let jtAcc := clamp (con.jtAcc + jt) (-jtMax) jtMax
  let ab := applyBiasImpulses a b con.r1 con.r2 (n.scale (jBias - con.jBias))
  let ab := applyImpulses ab.1 ab.2 con.r1 con.r2 (n.rotate ⟨jnAcc - con.jnAcc, jtAcc - con.jtAcc⟩)
  (ab.1, ab.2, { con with jBias := jBias, jnAcc := jnAcc, jtAcc := jtAcc })

/-- The loop arbiter.go:124-156. -/
def impulseLoop (n surfaceVr : V2 K) (friction : K) : List (Contact K) → Body K → Body K →
    Body K × Body K × List (Contact K)
  | [], a, b => (a, b, [])
  | con :: cs, a, b =>
    let s := contactStep n surfaceVr friction a b con
    let t := impulseLoop n surfaceVr friction cs s.1 s.2.1
    (t.1, t.2.1, s.2.2 :: t.2.2)

/-- arbiter.go:117-157 -/
def applyImpulse (arb : Arbiter K) (a b : Body K) : Body K × Body K × Arbiter K :=
  let t := impulseLoop arb.normal arb.surfaceVr arb.u arb.contacts a b
  (t.1, t.2.1, { arb with contacts := t.2.2 })

/-- arbiter.go:420-425 -/
def count (arb : Arbiter K) : Nat :=
  match arb.state with
  | .cached | .invalidated => 0
  | _ => arb.contacts.length

/-- arbiter.go:405-418 -/
def totalImpulse (arb : Arbiter K) : V2 K :=
  let sum := (arb.contacts.take arb.count).foldl
    (fun s con => s.add (arb.normal.rotate ⟨con.jnAcc, con.jtAcc⟩)) V2.zero
  if arb.swapped then sum else sum.neg

end Arbiter

/-! ## Joints -/

/-- `Constraint`: constraint.go:17-31, the numeric fields. -/
structure JointCfg (K : Type) where
  maxForce : K
  errorBias : K
  maxBias : K
deriving DecidableEq

/-- `PinJoint`: pin_joint.go:9-16 -/
structure PinJoint (K : Type) extends JointCfg K where
  anchorA : V2 K
  anchorB : V2 K
  dist : K
  r1 : V2 K
  r2 : V2 K
  n : V2 K
  nMass : K
  jnAcc : K
  bias : K
deriving DecidableEq

/-- The offset of a local anchor from the centre of gravity (e.g. pin_joint.go:50). -/
def anchorOffset (b : Body K) (anchor : V2 K) : V2 K := b.tr.applyVector (anchor.sub b.cog)

namespace PinJoint
/-- pin_joint.go:46-65 -/
def preStep (M : Mth K) (inf : K) (j : PinJoint K) (a b : Body K) (dt : K) : PinJoint K :=
  let r1 := anchorOffset a j.anchorA
  let r2 := anchorOffset b j.anchorB
  let delta := b.p.add (r2.sub (a.p.add r1))
  let dist := delta.mag M
  let n := if dist ≠ 0 then delta.scale (1 / dist) else delta.scale (1 / inf)
  { j with r1 := r1, r2 := r2, n := n, nMass := 1 / kScalar a b r1 r2 n,
           bias := clamp (-(biasCoef M j.errorBias dt) * (dist - j.dist) / dt) (-j.maxBias) j.maxBias }
/-- pin_joint.go:67-70 -/
def applyCached (j : PinJoint K) (a b : Body K) (dtCoef : K) : Body K × Body K :=
  applyImpulses a b j.r1 j.r2 (j.n.scale (j.jnAcc * dtCoef))
/-- pin_joint.go:72-87 -/
def applyImpulse (j : PinJoint K) (a b : Body K) (dt : K) : Body K × Body K × PinJoint K :=
  let vrn := normalRelativeVelocity a b j.r1 j.r2 j.n
  let jnMax := j.maxForce * dt
  let jn := (j.bias - vrn) * j.nMass
  let jnAcc := clamp (j.jnAcc + jn) (-jnMax) jnMax
  let ab := applyImpulses a b j.r1 j.r2 (j.n.scale (jnAcc - j.jnAcc))
  (ab.1, ab.2, { j with jnAcc := jnAcc })
/-- pin_joint.go:89-91 -/
def getImpulse (j : PinJoint K) : K := fabs j.jnAcc
end PinJoint

/-- `SlideJoint`: slide_joint.go:9-19 -/
structure SlideJoint (K : Type) extends JointCfg K where
  anchorA : V2 K
  anchorB : V2 K
  min : K
  max : K
  r1 : V2 K
  r2 : V2 K
  n : V2 K
  nMass : K
  jnAcc : K
  bias : K
deriving DecidableEq

namespace SlideJoint
/-- slide_joint.go:33-60 -/
def preStep (M : Mth K) (j : SlideJoint K) (a b : Body K) (dt : K) : SlideJoint K :=
  let r1 := anchorOffset a j.anchorA
  let r2 := anchorOffset b j.anchorB
  let delta := (b.p.add r2).sub (a.p.add r1)
  let dist := delta.mag M
  let pn : K × V2 K × K :=
    if dist > j.max then (dist - j.max, delta.unit M, j.jnAcc)
    else if dist < j.min then (j.min - dist, (delta.unit M).neg, j.jnAcc)
    else (0, V2.zero, 0)
  { j with r1 := r1, r2 := r2, n := pn.2.1, jnAcc := pn.2.2, nMass := 1 / kScalar a b r1 r2 pn.2.1,
           bias := clamp (-(biasCoef M j.errorBias dt) * pn.1 / dt) (-j.maxBias) j.maxBias }
/-- slide_joint.go:62-68 -/
def applyCached (j : SlideJoint K) (a b : Body K) (dtCoef : K) : Body K × Body K :=
  applyImpulses a b j.r1 j.r2 (j.n.scale (j.jnAcc * dtCoef))
/-- slide_joint.go:70-90 -/
def applyImpulse (j : SlideJoint K) (a b : Body K) (dt : K) : Body K × Body K × SlideJoint K :=
  if j.n = V2.zero then (a, b, j)
  else
    let vrn := (relativeVelocity a b j.r1 j.r2).dot j.n
    let jn := (j.bias - vrn) * j.nMass
    let jnAcc := clamp (j.jnAcc + jn) (-j.maxForce * dt) 0
    let ab := applyImpulses a b j.r1 j.r2 (j.n.scale (jnAcc - j.jnAcc))
    (ab.1, ab.2, { j with jnAcc := jnAcc })
/-- slide_joint.go:92-94 -/
def getImpulse (j : SlideJoint K) : K := fabs j.jnAcc
end SlideJoint

/-- `PivotJoint`: pivot_joint.go:5-13 -/
structure PivotJoint (K : Type) extends JointCfg K where
  anchorA : V2 K
  anchorB : V2 K
  r1 : V2 K
  r2 : V2 K
  k : Mat2x2 K
  jAcc : V2 K
  bias : V2 K
deriving DecidableEq

namespace PivotJoint
/-- pivot_joint.go:45-58 -/
def preStep (M : Mth K) (j : PivotJoint K) (a b : Body K) (dt : K) : PivotJoint K :=
  let r1 := anchorOffset a j.anchorA
  let r2 := anchorOffset b j.anchorB
  let delta := (b.p.add r2).sub (a.p.add r1)
  { j with r1 := r1, r2 := r2, k := kTensor a b r1 r2,
           bias := (delta.scale (-(biasCoef M j.errorBias dt) / dt)).clampMag M j.maxBias }
/-- pivot_joint.go:60-62 -/
def applyCached (j : PivotJoint K) (a b : Body K) (dtCoef : K) : Body K × Body K :=
  applyImpulses a b j.r1 j.r2 (j.jAcc.scale dtCoef)
/-- pivot_joint.go:64-81 -/
def applyImpulse (M : Mth K) (j : PivotJoint K) (a b : Body K) (dt : K) : Body K × Body K × PivotJoint K :=
  let vr := relativeVelocity a b j.r1 j.r2
  let d := j.k.transform (j.bias.sub vr)
  let jAcc := (j.jAcc.add d).clampMag M (j.maxForce * dt)
  let ab := applyImpulses a b j.r1 j.r2 (jAcc.sub j.jAcc)
  (ab.1, ab.2, { j with jAcc := jAcc })
/-- pivot_joint.go:83-85 -/
def getImpulse (M : Mth K) (j : PivotJoint K) : K := j.jAcc.mag M
end PivotJoint

/-- `GrooveJoint`: groove_joint.go:5-17 -/
structure GrooveJoint (K : Type) extends JointCfg K where
  grooveN : V2 K
  grooveA : V2 K
  grooveB : V2 K
  anchorB : V2 K
  grooveTn : V2 K
  clamp : K
  r1 : V2 K
  r2 : V2 K
  k : Mat2x2 K
  jAcc : V2 K
  bias : V2 K
deriving DecidableEq

namespace GrooveJoint
/-- groove_joint.go:31-61 -/
def preStep (M : Mth K) (j : GrooveJoint K) (a b : Body K) (dt : K) : GrooveJoint K :=
  let ta := a.tr.apply j.grooveA
  let tb := a.tr.apply j.grooveB
  let n := a.tr.applyVector j.grooveN
  let d := ta.dot n
  let r2 := anchorOffset b j.anchorB
  let td := (b.p.add r2).cross n
  let cr : K × V2 K :=
    if td ≤ ta.cross n then (1, ta.sub a.p)
    else if td ≥ tb.cross n then (-1, tb.sub a.p)
    else (0, ((n.perp.scale (-td)).add (n.scale d)).sub a.p)
  let delta := (b.p.add r2).sub (a.p.add cr.2)
  { j with grooveTn := n, r2 := r2, clamp := cr.1, r1 := cr.2, k := kTensor a b cr.2 r2,
           bias := (delta.scale (-(biasCoef M j.errorBias dt) / dt)).clampMag M j.maxBias }
/-- groove_joint.go:63-68 -/
def applyCached (j : GrooveJoint K) (a b : Body K) (dtCoef : K) : Body K × Body K :=
  applyImpulses a b j.r1 j.r2 (j.jAcc.scale dtCoef)
/-- groove_joint.go:70-79 -/
def grooveConstrain (M : Mth K) (j : GrooveJoint K) (d : V2 K) (dt : K) : V2 K :=
  let n := j.grooveTn
  let jClamp := if j.clamp * d.cross n > 0 then d else d.project n
  jClamp.clampMag M (j.maxForce * dt)
/-- groove_joint.go:81-96 -/
def applyImpulse (M : Mth K) (j : GrooveJoint K) (a b : Body K) (dt : K) : Body K × Body K × GrooveJoint K :=
  let vr := relativeVelocity a b j.r1 j.r2
  let d := j.k.transform (j.bias.sub vr)
  let jAcc := j.grooveConstrain M (j.jAcc.add d) dt
  let ab := applyImpulses a b j.r1 j.r2 (jAcc.sub j.jAcc)
  (ab.1, ab.2, { j with jAcc := jAcc })
/-- groove_joint.go:98-100 -/
def getImpulse (M : Mth K) (j : GrooveJoint K) : K := j.jAcc.mag M
end GrooveJoint

/-- `GearJoint`: gear_joint.go:5-13 -/
structure GearJoint (K : Type) extends JointCfg K where
  phase : K
  ratio : K
  ratioInv : K
  iSum : K
  bias : K
  jAcc : K
deriving DecidableEq

/-- The pair of assignments at gear_joint.go:44-45, 64-65 (`c` is `ratioInv`) and, with `c = 1`, at the
same place in the other angular joints. -/
def spin (a b : Body K) (j c : K) : Body K × Body K :=
  ({ a with w := a.w - j * a.iInv * c }, { b with w := b.w + j * b.iInv })

namespace GearJoint
/-- gear_joint.go:15-25, the numeric fields. -/
def new (cfg : JointCfg K) (phase ratio : K) : GearJoint K := ⟨cfg, phase, ratio, 1 / ratio, 0, 0, 0⟩
/-- gear_joint.go:27-37 -/
def preStep (M : Mth K) (j : GearJoint K) (a b : Body K) (dt : K) : GearJoint K :=
  { j with iSum := 1 / (a.iInv * j.ratioInv + j.ratio * b.iInv),
           bias := clamp (-(biasCoef M j.errorBias dt) * (b.angle * j.ratio - a.angle - j.phase) / dt)
             (-j.maxBias) j.maxBias }
/-- gear_joint.go:39-46 -/
def applyCached (j : GearJoint K) (a b : Body K) (dtCoef : K) : Body K × Body K :=
  spin a b (j.jAcc * dtCoef) j.ratioInv
/-- gear_joint.go:48-66 -/
def applyImpulse (j : GearJoint K) (a b : Body K) (dt : K) : Body K × Body K × GearJoint K :=
  let wr := b.w * j.ratio - a.w
  let jMax := j.maxForce * dt
  let d := (j.bias - wr) * j.iSum
  let jAcc := clamp (j.jAcc + d) (-jMax) jMax
  let ab := spin a b (jAcc - j.jAcc) j.ratioInv
  (ab.1, ab.2, { j with jAcc := jAcc })
/-- gear_joint.go:68-70 -/
def getImpulse (j : GearJoint K) : K := fabs j.jAcc
end GearJoint

/-- `RatchetJoint`: ratchet_joint.go:5-11 -/
structure RatchetJoint (K : Type) extends JointCfg K where
  angle : K
  phase : K
  ratchet : K
  iSum : K
  bias : K
  jAcc : K
deriving DecidableEq

namespace RatchetJoint
/-- ratchet_joint.go:28-54 -/
def preStep (M : Mth K) (j : RatchetJoint K) (a b : Body K) (dt : K) : RatchetJoint K :=
  let delta := b.angle - a.angle
  let diff := j.angle - delta
  let pa : K × K :=
    if diff * j.ratchet > 0 then (diff, j.angle)
    else (0, M.floor ((delta - j.phase) / j.ratchet) * j.ratchet + j.phase)
  let bias := clamp (-(biasCoef M j.errorBias dt) * pa.1 / dt) (-j.maxBias) j.maxBias
  { j with angle := pa.2, iSum := 1 / (a.iInv + b.iInv), bias := bias,
           jAcc := if bias = 0 then 0 else j.jAcc }
/-- ratchet_joint.go:56-63 (`* 1` is `spin`'s coefficient) -/
def applyCached (j : RatchetJoint K) (a b : Body K) (dtCoef : K) : Body K × Body K :=
  spin a b (j.jAcc * dtCoef) 1
/-- ratchet_joint.go:65-85 -/
def applyImpulse (j : RatchetJoint K) (a b : Body K) (dt : K) : Body K × Body K × RatchetJoint K :=
  if j.bias = 0 then (a, b, j)
  else
    let wr := b.w - a.w
    let jMax := j.maxForce * dt
    let d := -(j.bias + wr) * j.iSum
    let jAcc := clamp ((j.jAcc + d) * j.ratchet) 0 (jMax * fabs j.ratchet) / j.ratchet
    let ab := spin a b (jAcc - j.jAcc) 1
    (ab.1, ab.2, { j with jAcc := jAcc })
/-- ratchet_joint.go:87-89 -/
def getImpulse (j : RatchetJoint K) : K := fabs j.jAcc
end RatchetJoint

/-- `RotaryLimitJoint`: rotary_limit_joint.go:5-11 -/
structure RotaryLimitJoint (K : Type) extends JointCfg K where
  min : K
  max : K
  iSum : K
  bias : K
  jAcc : K
deriving DecidableEq

namespace RotaryLimitJoint
/-- rotary_limit_joint.go:22-42 -/
def preStep (M : Mth K) (j : RotaryLimitJoint K) (a b : Body K) (dt : K) : RotaryLimitJoint K :=
  let dist := b.angle - a.angle
  let pdist := if dist > j.max then j.max - dist else if dist < j.min then j.min - dist else 0
  let bias := clamp (-(biasCoef M j.errorBias dt) * pdist / dt) (-j.maxBias) j.maxBias
  { j with iSum := 1 / (a.iInv + b.iInv), bias := bias, jAcc := if bias = 0 then 0 else j.jAcc }
/-- rotary_limit_joint.go:44-51 -/
def applyCached (j : RotaryLimitJoint K) (a b : Body K) (dtCoef : K) : Body K × Body K :=
  spin a b (j.jAcc * dtCoef) 1
/-- rotary_limit_joint.go:53-76 -/
def applyImpulse (j : RotaryLimitJoint K) (a b : Body K) (dt : K) : Body K × Body K × RotaryLimitJoint K :=
  if j.bias = 0 then (a, b, j)
  else
    let wr := b.w - a.w
    let jMax := j.maxForce * dt
    let d := -(j.bias + wr) * j.iSum
    let jAcc := if j.bias < 0 then Cm.clamp (j.jAcc + d) 0 jMax else Cm.clamp (j.jAcc + d) (-jMax) 0
    let ab := spin a b (jAcc - j.jAcc) 1
    (ab.1, ab.2, { j with jAcc := jAcc })
/-- rotary_limit_joint.go:78-80 -/
def getImpulse (j : RotaryLimitJoint K) : K := fabs j.jAcc
end RotaryLimitJoint

/-- `SimpleMotor`: simple_motor.go:5-11 -/
structure SimpleMotor (K : Type) extends JointCfg K where
  rate : K
  iSum : K
  jAcc : K
deriving DecidableEq

namespace SimpleMotor
/-- simple_motor.go:21-27 -/
def preStep (j : SimpleMotor K) (a b : Body K) : SimpleMotor K := { j with iSum := 1 / (a.iInv + b.iInv) }
/-- simple_motor.go:29-36 -/
def applyCached (j : SimpleMotor K) (a b : Body K) (dtCoef : K) : Body K × Body K :=
  spin a b (j.jAcc * dtCoef) 1
/-- simple_motor.go:38-53 -/
def applyImpulse (j : SimpleMotor K) (a b : Body K) (dt : K) : Body K × Body K × SimpleMotor K :=
  let wr := b.w - a.w + j.rate
  let jMax := j.maxForce * dt
  let d := -wr * j.iSum
  let jAcc := clamp (j.jAcc + d) (-jMax) jMax
  let ab := spin a b (jAcc - j.jAcc) 1
  (ab.1, ab.2, { j with jAcc := jAcc })
/-- simple_motor.go:55-57 -/
def getImpulse (j : SimpleMotor K) : K := fabs j.jAcc
end SimpleMotor

/-- `DampedSpring`: damped_spring.go:11-25. `SpringForceFunc` is a function of the distance only (the
default is damped_spring.go:98-100). -/
structure DampedSpring (K : Type) where
  anchorA : V2 K
  anchorB : V2 K
  damping : K
  forceFn : K → K
  targetVrn : K
  vCoef : K
  r1 : V2 K
  r2 : V2 K
  nMass : K
  n : V2 K
  jAcc : K

namespace DampedSpring
/-- damped_spring.go:98-100 -/
def defaultForce (restLength stiffness dist : K) : K := (restLength - dist) * stiffness
/-- damped_spring.go:41-70; also alters the bodies. -/
def preStep (M : Mth K) (inf : K) (s : DampedSpring K) (a b : Body K) (dt : K) :
    Body K × Body K × DampedSpring K :=
  let r1 := anchorOffset a s.anchorA
  let r2 := anchorOffset b s.anchorB
  let delta := (b.p.add r2).sub (a.p.add r1)
  let dist := delta.mag M
  let n := if dist ≠ 0 then delta.scale (1 / dist) else delta.scale (1 / inf)
  let k := kScalar a b r1 r2 n
  let jAcc := s.forceFn dist * dt
  let ab := applyImpulses a b r1 r2 (n.scale jAcc)
  (ab.1, ab.2, { s with r1 := r1, r2 := r2, n := n, nMass := 1 / k, targetVrn := 0,
                        vCoef := 1 - M.exp (-s.damping * dt * k), jAcc := jAcc })
/-- damped_spring.go:76-92 -/
def applyImpulse (s : DampedSpring K) (a b : Body K) : Body K × Body K × DampedSpring K :=
  let vrn := normalRelativeVelocity a b s.r1 s.r2 s.n
  let vDamp := (s.targetVrn - vrn) * s.vCoef
  let jDamp := vDamp * s.nMass
  let ab := applyImpulses a b s.r1 s.r2 (s.n.scale jDamp)
  (ab.1, ab.2, { s with targetVrn := vrn + vDamp, jAcc := s.jAcc + jDamp })
end DampedSpring

/-- `DampedRotarySpring`: damped_rotary_spring.go:5-13; the torque function depends on the relative angle
only (the default is :15-17). -/
structure DampedRotarySpring (K : Type) where
  damping : K
  torqueFn : K → K
  targetWrn : K
  wCoef : K
  iSum : K
  jAcc : K

namespace DampedRotarySpring
/-- damped_rotary_spring.go:15-17 -/
def defaultTorque (restAngle stiffness relativeAngle : K) : K := (relativeAngle - restAngle) * stiffness
/-- damped_rotary_spring.go:30-45; also alters the bodies. -/
def preStep (M : Mth K) (s : DampedRotarySpring K) (a b : Body K) (dt : K) :
    Body K × Body K × DampedRotarySpring K :=
  let moment := a.iInv + b.iInv
  let jSpring := s.torqueFn (a.angle - b.angle) * dt
  ({ a with w := a.w - jSpring * a.iInv }, { b with w := b.w + jSpring * b.iInv },
   { s with iSum := 1 / moment, wCoef := 1 - M.exp (-s.damping * dt * moment), targetWrn := 0,
            jAcc := jSpring })
/-- damped_rotary_spring.go:51-65 -/
def applyImpulse (s : DampedRotarySpring K) (a b : Body K) : Body K × Body K × DampedRotarySpring K :=
  let wrn := a.w - b.w
  let wDamp := (s.targetWrn - wrn) * s.wCoef
  let jDamp := wDamp * s.iSum
  ({ a with w := a.w + jDamp * a.iInv }, { b with w := b.w - jDamp * b.iInv },
   { s with targetWrn := wrn + wDamp, jAcc := s.jAcc + jDamp })
/-- damped_rotary_spring.go:67-69 -/
def getImpulse (s : DampedRotarySpring K) : K := s.jAcc
end DampedRotarySpring

/-- Any of the joints. -/
inductive Joint (K : Type) where
  | pin (j : PinJoint K)
  | slide (j : SlideJoint K)
  | pivot (j : PivotJoint K)
  | groove (j : GrooveJoint K)
  | gear (j : GearJoint K)
  | ratchet (j : RatchetJoint K)
  | rotaryLimit (j : RotaryLimitJoint K)
  | motor (j : SimpleMotor K)
  | spring (j : DampedSpring K)
  | rotarySpring (j : DampedRotarySpring K)

namespace Joint
/-- `Constrainer.PreStep`: constraint.go:8 -/
def preStep (M : Mth K) (inf : K) (jt : Joint K) (a b : Body K) (dt : K) : Body K × Body K × Joint K :=
  match jt with
  | pin j => (a, b, pin (j.preStep M inf a b dt))
  | slide j => (a, b, slide (j.preStep M a b dt))
  | pivot j => (a, b, pivot (j.preStep M a b dt))
  | groove j => (a, b, groove (j.preStep M a b dt))
  | gear j => (a, b, gear (j.preStep M a b dt))
  | ratchet j => (a, b, ratchet (j.preStep M a b dt))
  | rotaryLimit j => (a, b, rotaryLimit (j.preStep M a b dt))
  | motor j => (a, b, motor (j.preStep a b))
  | spring j => let t := j.preStep M inf a b dt; (t.1, t.2.1, spring t.2.2)
  | rotarySpring j => let t := j.preStep M a b dt; (t.1, t.2.1, rotarySpring t.2.2)
/-- `Constrainer.ApplyCachedImpulse`: constraint.go:9; the springs do nothing (damped_spring.go:72-74,
damped_rotary_spring.go:47-49). -/
def applyCached (jt : Joint K) (a b : Body K) (dtCoef : K) : Body K × Body K :=
  match jt with
  | pin j => j.applyCached a b dtCoef
  | slide j => j.applyCached a b dtCoef
  | pivot j => j.applyCached a b dtCoef
  | groove j => j.applyCached a b dtCoef
  | gear j => j.applyCached a b dtCoef
  | ratchet j => j.applyCached a b dtCoef
  | rotaryLimit j => j.applyCached a b dtCoef
  | motor j => j.applyCached a b dtCoef
  | spring _ => (a, b)
  | rotarySpring _ => (a, b)
/-- `Constrainer.ApplyImpulse`: constraint.go:10 -/
def applyImpulse (M : Mth K) (jt : Joint K) (a b : Body K) (dt : K) : Body K × Body K × Joint K :=
  match jt with
  | pin j => let t := j.applyImpulse a b dt; (t.1, t.2.1, pin t.2.2)
  | slide j => let t := j.applyImpulse a b dt; (t.1, t.2.1, slide t.2.2)
  | pivot j => let t := j.applyImpulse M a b dt; (t.1, t.2.1, pivot t.2.2)
  | groove j => let t := j.applyImpulse M a b dt; (t.1, t.2.1, groove t.2.2)
  | gear j => let t := j.applyImpulse a b dt; (t.1, t.2.1, gear t.2.2)
  | ratchet j => let t := j.applyImpulse a b dt; (t.1, t.2.1, ratchet t.2.2)
  | rotaryLimit j => let t := j.applyImpulse a b dt; (t.1, t.2.1, rotaryLimit t.2.2)
  | motor j => let t := j.applyImpulse a b dt; (t.1, t.2.1, motor t.2.2)
  | spring j => let t := j.applyImpulse a b; (t.1, t.2.1, spring t.2.2)
  | rotarySpring j => let t := j.applyImpulse a b; (t.1, t.2.1, rotarySpring t.2.2)
/-- `Constrainer.GetImpulse`: constraint.go:11 -/
def getImpulse (M : Mth K) (jt : Joint K) : K :=
  match jt with
  | pin j => j.getImpulse
  | slide j => j.getImpulse
  | pivot j => j.getImpulse M
  | groove j => j.getImpulse M
  | gear j => j.getImpulse
  | ratchet j => j.getImpulse
  | rotaryLimit j => j.getImpulse
  | motor j => j.getImpulse
  | spring j => j.jAcc
  | rotarySpring j => j.jAcc
end Joint

/-! ## The solver loop of `Space.Step` -/

/-- An arbiter in `Space.Arbiters` or a constraint in `Space.constraints`, with the numbers of its bodies. -/
structure Link (α : Type) where
  ia : Nat
  ib : Nat
  it : α

/-- Store the two bodies back. -/
def putPair (bs : Nat → Body K) (ia ib : Nat) (a b : Body K) : Nat → Body K :=
  fun k => if k = ia then a else if k = ib then b else bs k

/-- The part of the space the solver works on. -/
structure SolverState (K : Type) where
  bodies : Nat → Body K
  arbs : List (Link (Arbiter K))
  joints : List (Link (Joint K))

/-- A loop over links that updates the bodies and the items. -/
def linkLoop {α : Type} (f : α → Body K → Body K → Body K × Body K × α) :
    List (Link α) → (Nat → Body K) → (Nat → Body K) × List (Link α)
  | [], bs => (bs, [])
  | l :: ls, bs =>
    let t := f l.it (bs l.ia) (bs l.ib)
    let r := linkLoop f ls (putPair bs l.ia l.ib t.1 t.2.1)
    (r.1, { l with it := t.2.2 } :: r.2)

/-- space.go:588-598 (the `PreSolve` callbacks of constraints are user code and left out). -/
def SolverState.preStep (M : Mth K) (inf slop cbias dt : K) (s : SolverState K) : SolverState K :=
  let ra := linkLoop (fun arb a b => (a, b, arb.preStep a b dt slop (1 - M.pow cbias dt))) s.arbs s.bodies
  let rj := linkLoop (fun jt a b => jt.preStep M inf a b dt) s.joints ra.1
  ⟨rj.1, ra.2, rj.2⟩

/-- space.go:601-605, default velocity functions; `dyn` lists the bodies in `DynamicBodies`. -/
def SolverState.velocities (M : Mth K) (inf damping : K) (g : V2 K) (dyn : List Nat) (dt : K)
    (s : SolverState K) : SolverState K :=
  { s with bodies := fun k =>
      if k ∈ dyn then (s.bodies k).updateVelocity inf g (M.pow damping dt) dt else s.bodies k }

/-- space.go:608-619 -/
def SolverState.cached (prevDT dt : K) (s : SolverState K) : SolverState K :=
  let dtCoef := if prevDT ≠ 0 then dt / prevDT else 0
  let ra := linkLoop (fun arb a b => let t := arb.applyCachedImpulse a b dtCoef; (t.1, t.2, arb)) s.arbs s.bodies
  let rj := linkLoop (fun jt a b => let t := jt.applyCached a b dtCoef; (t.1, t.2, jt)) s.joints ra.1
  ⟨rj.1, ra.2, rj.2⟩

/-- One turn of the loop space.go:623-631. -/
def SolverState.iterate (M : Mth K) (dt : K) (s : SolverState K) : SolverState K :=
  let ra := linkLoop (fun arb a b => arb.applyImpulse a b) s.arbs s.bodies
  let rj := linkLoop (fun jt a b => jt.applyImpulse M a b dt) s.joints ra.1
  ⟨rj.1, ra.2, rj.2⟩

/-- space.go:586-631 -/
def SolverState.solve (M : Mth K) (inf slop cbias damping : K) (g : V2 K) (dyn : List Nat)
    (prevDT dt : K) (iterations : Nat) (s : SolverState K) : SolverState K :=
  (SolverState.iterate M dt)^[iterations]
    (((s.preStep M inf slop cbias dt).velocities M inf damping g dyn dt).cached prevDT dt)

end Cm
