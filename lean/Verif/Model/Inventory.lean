import Verif.Model.Space
/-! # What a space says it contains -/
namespace Cm.Sp
variable {K : Type}

/-- `ContainsConstraint`: space.go:410-412. -/
def containsConstraint (s : St K) (c : Nat) : Bool := (s.cn c).space

/-- `ContainsShape`: space.go:414-416. -/
def containsShape (s : St K) (x : Nat) : Bool := (s.sh x).space

/-- `ContainsBody`: space.go:418-420. -/
def containsBody (s : St K) (b : Nat) : Bool := (s.bd b).space

/-- `DynamicBodyCount`: space.go:133-135. -/
def dynamicBodyCount (s : St K) : Nat := s.dyn.length

/-- `StaticBodyCount`: space.go:138-140. -/
def staticBodyCount (s : St K) : Nat := s.stat.length

end Cm.Sp
