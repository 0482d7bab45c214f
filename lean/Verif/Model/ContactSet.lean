import Verif.Model.Solver
/-! # Contacts of an arbiter: refreshing them and reading and writing them as point sets -/
namespace Cm
variable {K : Type} [Zero K] [One K] [Add K] [Sub K] [Mul K] [Div K] [Neg K] [NatCast K] [LinearOrder K]

/-- The inner loop arbiter.go:210-219: every old contact with the same hash is copied over what was there. -/
def copyOld (old : List (Contact K)) (con : Contact K) : Contact K :=
  old.foldl (fun c o => if c.hash = o.hash then { c with jnAcc := o.jnAcc, jtAcc := o.jtAcc } else c) con

/-- The body of the outer loop arbiter.go:198-220. -/
def refreshContact (old : List (Contact K)) (pa pb : V2 K) (con : Contact K) : Contact K :=
  copyOld old { con with r1 := con.r1.sub pa, r2 := con.r2.sub pb, jnAcc := 0, jtAcc := 0 }

/-- The surface properties of a shape used here: shape.go (`Elasticity`, `Friction`, `SurfaceVelocity`). -/
structure Surface (K : Type) where
  elasticity : K
  friction : K
  velocity : V2 K
deriving DecidableEq

/-- arbiter.go:186-256 without the choice of handlers (`Model/Handlers.lean`): `arr` are the contacts found by the
collision routine with absolute points, `n` its normal, `pa` and `pb` the positions of the two bodies. -/
def Arbiter.update (arb : Arbiter K) (arr : List (Contact K)) (n : V2 K) (pa pb : V2 K) (sa sb : Surface K) (swapped : Bool) :
    Arbiter K :=
  let surfaceVr := sb.velocity.sub sa.velocity
  { e := sa.elasticity * sb.elasticity
    u := sa.friction * sb.friction
    surfaceVr := surfaceVr.sub (n.scale (surfaceVr.dot n))
    normal := n
    contacts := arr.map (refreshContact arb.contacts pa pb)
    state := if arb.state = .cached then .first else arb.state
    swapped := swapped }

/-- One point of `ContactPointSet`: arbiter.go:459-466. -/
@[ext] structure PointPair (K : Type) where
  pointA : V2 K
  pointB : V2 K
  distance : K
deriving DecidableEq

/-- `ContactPointSet`: arbiter.go:453-467. The array of `MaxContactsPerArbiter` points with a count is a list. -/
@[ext] structure PointSet (K : Type) where
  normal : V2 K
  points : List (PointPair K)
deriving DecidableEq

/-- arbiter.go:470-499; `pa`, `pb` are the positions of the bodies. -/
def Arbiter.contactPointSet (arb : Arbiter K) (pa pb : V2 K) : PointSet K :=
  { normal := if arb.swapped then arb.normal.neg else arb.normal
    points := (arb.contacts.take arb.count).map fun con =>
      let p1 := pa.add con.r1
      let p2 := pb.add con.r2
      { pointA := if arb.swapped then p2 else p1
        pointB := if arb.swapped then p1 else p2
        distance := (p2.sub p1).dot arb.normal } }

/-- arbiter.go:504-528; `none` is `log.Fatalln`. -/
def Arbiter.setContactPointSet (arb : Arbiter K) (pa pb : V2 K) (set : PointSet K) : Option (Arbiter K) :=
  if set.points.length ≠ arb.contacts.length then none
  else some { arb with
    normal := if arb.swapped then set.normal.neg else set.normal
    contacts := List.zipWith (fun con pt =>
      { con with
        r1 := (if arb.swapped then pt.pointB else pt.pointA).sub pa
        r2 := (if arb.swapped then pt.pointA else pt.pointB).sub pb }) arb.contacts set.points }

end Cm
