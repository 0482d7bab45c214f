import Verif.Model.Space

/-!
The loops over the contents of a space, space.go:826-930, for a callback that changes nothing: the objects visited, in
order. The lock they take is left out.
-/

namespace Cm
namespace Sp

variable {K : Type}

/-- The members of the groups asleep: the loops space.go:838-846 and 869-877. -/
def eachAsleep (s : St K) : List Nat → Option (List Nat)
  | [] => some []
  | r :: l => match chain s (s.nb + 1) (some r) with
    | none => none
    | some m => match eachAsleep s l with
      | none => none
      | some k => some (m ++ k)

/-- `EachBody`: space.go:826-847. -/
def eachBody (s : St K) : Option (List Nat) :=
  match eachAsleep s s.sleeping with
  | none => none
  | some m => some (s.dyn ++ s.stat ++ m)

/-- `EachStaticBody`: space.go:850-858. -/
def eachStaticBody (s : St K) : List Nat := s.stat

/-- `EachDynamicBody`: space.go:861-878. -/
def eachDynamicBody (s : St K) : Option (List Nat) :=
  match eachAsleep s s.sleeping with
  | none => none
  | some m => some (s.dyn ++ m)

/-- `EachShape`: space.go:909-920. -/
def eachShape (s : St K) : List Nat := s.dynIdx ++ s.statIdx

/-- `ShapeCount`: space.go:904-906. -/
def shapeCount (s : St K) : Nat := s.statIdx.length + s.dynIdx.length

/-- `EachConstraint`: space.go:922-930. -/
def eachConstraint (s : St K) : List Nat := s.cons

end Sp
end Cm
