import Verif.Model.BBTree
/-! # Specification of the pair of indexes: a map from shapes to the index they are in and their last known box -/
namespace Cm
namespace Spec
variable {K : Type} [LinearOrder K]

/-- `some (true, b)`: in the dynamic index; `some (false, b)`: in the static index. `b` is the box the shape had
when it was last inserted or reindexed. -/
abbrev Index (K : Type) := Nat → Option (Bool × BB K)

def Index.set (m : Index K) (i : Nat) (v : Option (Bool × BB K)) : Index K := fun j => if j = i then v else m j

/-- Effect of an operation; `none` when it is misused (inserting a present shape, removing an absent one). -/
def indexStep (m : Index K) : BBTree.Op K → Option (Index K)
  | .insertDyn i bb _ => if (m i).isSome then none else some (m.set i (some (true, bb)))
  | .insertStat i bb => if (m i).isSome then none else some (m.set i (some (false, bb)))
  | .removeDyn i => match m i with
    | some (true, _) => some (m.set i none)
    | _ => none
  | .removeStat i => match m i with
    | some (false, _) => some (m.set i none)
    | _ => none
  | .reindexDyn i bb _ => match m i with
    | some (true, _) => some (m.set i (some (true, bb)))
    | _ => some m
  | .reindexStat i bb => match m i with
    | some (false, _) => some (m.set i (some (false, bb)))
    | _ => some m
  | .reindexQuery _ bbf _ => some (fun i => match m i with
    | some (true, _) => some (true, bbf i)
    | x => x)

def indexRun (m : Index K) : List (BBTree.Op K) → Option (Index K)
  | [] => some m
  | op :: ops => match indexStep m op with
    | none => none
    | some m' => indexRun m' ops

/-- Conditions on the environment: boxes are not inside out, and the hash set of leaves is enumerated completely and
without repetition (C01). -/
def Legal (m : Index K) : BBTree.Op K → Prop
  | .insertDyn _ bb _ | .insertStat _ bb | .reindexDyn _ bb _ | .reindexStat _ bb => bb.L ≤ bb.R ∧ bb.B ≤ bb.T
  | .reindexQuery order bbf _ => (∀ i, (bbf i).L ≤ (bbf i).R ∧ (bbf i).B ≤ (bbf i).T) ∧ order.Nodup ∧
      ∀ i, i ∈ order ↔ ∃ b, m i = some (true, b)
  | _ => True

def LegalRun (m : Index K) : List (BBTree.Op K) → Prop
  | [] => True
  | op :: ops => Legal m op ∧ ∀ m', indexStep m op = some m' → LegalRun m' ops

def emptyIndex : Index K := fun _ => none

end Spec
end Cm
