import Verif.Model.BBTree
import Verif.Model.Threads
/-! # From the broad phase to the narrow phase -/
namespace Cm
variable {K : Type} [Zero K] [One K] [Add K] [Sub K] [Mul K] [Div K] [Neg K] [NatCast K] [LinearOrder K]

/-- `QueryReject`: space.go:1133-1147. `body`, `flt` and `bb` are the fields `Body`, `Filter` and `BB` of a shape, `barred` is
`QueryRejectConstraints` (`Heap.rejects`). -/
def queryReject (body : Nat → Nat) (flt : Nat → ShapeFilter) (bb : Nat → BB K) (barred : Nat → Nat → Bool) (a b : Nat) : Bool :=
  if body a = body b then true
  else if (flt a).reject (flt b) then true
  else if !(bb a).intersects (bb b) then true
  else if barred (body a) (body b) then true
  else false

/-- The pairs for which `SpaceCollideShapesFunc` gets to `Collide` (space.go:1068-1076), out of those the broad phase reports. -/
def narrowPairs (body : Nat → Nat) (flt : Nat → ShapeFilter) (bb : Nat → BB K) (barred : Nat → Nat → Bool) (reported : List (Nat × Nat)) :
    List (Nat × Nat) :=
  reported.filter fun p => !queryReject body flt bb barred p.1 p.2

end Cm
