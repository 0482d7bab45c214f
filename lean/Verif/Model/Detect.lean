import Verif.Model.Narrow
import Verif.Model.Collide
/-! # From the narrow phase to the contacts -/
namespace Cm
variable {K : Type} [Zero K] [One K] [Add K] [Sub K] [Mul K] [Div K] [Neg K] [NatCast K] [LinearOrder K]

/-- A shape as cached for a step by `ShapeUpdateFunc` (space.go:1269-1271, shape.go:155-162) from its class and the transform of its body;
`Rotation` of the body is the first column (body.go:273-275). -/
def cachedShape (inf : K) (t : Transform K) (s : Cls K) (hash : BitVec 64) : CShape K :=
  ⟨(s.cache inf t).1, (s.cache inf t).2, hash, ⟨t.a, t.b⟩⟩

/-- `Collide` found something: `info.count != 0`, space.go:1076-1082. A panic counts as nothing found; see `C98_no_panic`. -/
def touches (M : Mth K) (inf tiny : K) (a b : CShape K) (id : Nat) : Bool :=
  match collide M inf tiny a b id with
  | some info => !info.contacts.isEmpty
  | none => false

/-- The pairs for which `SpaceCollideShapesFunc` gets past space.go:1079 to the arbiter; `ids` are the collision ids kept by the broad phase. -/
def foundPairs (M : Mth K) (inf tiny : K) (sh : Nat → CShape K) (ids : Nat → Nat → Nat) (tested : List (Nat × Nat)) : List (Nat × Nat) :=
  tested.filter fun p => touches M inf tiny (sh p.1) (sh p.2) (ids p.1 p.2)

end Cm
