import Verif.Model.Space

/-!
# What the user does with a space, and what should then be in it

`Listed` is a reference: which bodies, shapes and joints are in the space, from the calls alone. It knows nothing of
lists, indexes or sleeping.
-/

namespace Cm
namespace Sp

/-- A call of the user. -/
inductive Op (K : Type) where
  | attach (x b : Nat)
  | addBody (b : Nat)
  | removeBody (b : Nat)
  | addShape (x : Nat)
  | removeShape (x : Nat)
  | addJoint (c : Nat)
  | removeJoint (c : Nat)
  | setType (b : Nat) (k : Kind)
  | wake (b : Nat)
  | gravity
  | step (inp : StepIn K)

variable {K : Type} [Zero K] [LT K] [DecidableRel (α := K) (· < ·)] [Add K] [DecidableEq K]

/-- The call in the model. -/
def Op.run (s : St K) : Op K → Option (St K)
  | .attach x b => some (Sp.attach s x b)
  | .addBody b => some (Sp.addBody s b)
  | .removeBody b => Sp.removeBody s b
  | .addShape x => Sp.addShape s x
  | .removeShape x => Sp.removeShape s x
  | .addJoint c => addConstraint s c
  | .removeJoint c => removeConstraint s c
  | .setType b k => Sp.setType s b k
  | .wake b => activate s b
  | .gravity => setGravity s
  | .step inp => stepPublic s inp

/-- Several calls. -/
def runAll (s : St K) : List (Op K) → Option (St K)
  | [] => some s
  | o :: l => match o.run s with
    | none => none
    | some s1 => runAll s1 l

end Sp

namespace Spec
open Sp

/-- The reference. -/
structure Listed where
  bodies : Nat → Bool
  shapes : Nat → Bool
  joints : Nat → Bool
  kinds : Nat → Kind
  home : Nat → Option Nat

/-- What the call does to the reference. -/
def Listed.next {K : Type} (L : Listed) : Op K → Listed
  | .attach x b => { L with home := fun y => if y = x then some b else L.home y }
  | .addBody b => { L with bodies := fun c => decide (c = b) || L.bodies c }
  | .removeBody b => { L with bodies := fun c => !decide (c = b) && L.bodies c }
  | .addShape x => { L with shapes := fun y => decide (y = x) || L.shapes y }
  | .removeShape x => { L with shapes := fun y => !decide (y = x) && L.shapes y, home := fun y => if y = x then none else L.home y }
  | .addJoint c => { L with joints := fun d => decide (d = c) || L.joints d }
  | .removeJoint c => { L with joints := fun d => !decide (d = c) && L.joints d }
  | .setType b k => { L with kinds := fun c => if c = b then k else L.kinds c }
  | .wake _ => L
  | .gravity => L
  | .step _ => L

/-- What the calls do to the reference. -/
def Listed.after {K : Type} (L : Listed) : List (Op K) → Listed
  | [] => L
  | o :: l => (L.next o).after l

end Spec
end Cm
