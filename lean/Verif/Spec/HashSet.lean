import Verif.Model.HashSet
/-!
# Specification of a set with keyed lookup

The abstract state is the list of distinct stored elements, most recent first. No table, no hash.
-/
namespace Cm.Spec
open HashSet (Op Out)
variable {T U : Type}

/-- The stored elements after one more operation. -/
def setStep (isEqual : T → U → Bool) (L : List U) : Op T U → List U
  | .insert p u => if L.any (isEqual p) then L else u :: L
  | .remove p => L.filter (fun e => !isEqual p e)
  | .filter f => L.filter f
  | _ => L

/-- What a client may observe for an operation on the abstract set `L`. Enumeration is in any order. -/
def setOut (isEqual : T → U → Bool) (L : List U) : Op T U → Out U → Prop
  | .insert p u, .elt r => if L.any (isEqual p) then (∃ e ∈ L, isEqual p e ∧ r = some e) else r = some u
  | .remove p, .elt r => if L.any (isEqual p) then (∃ e ∈ L, isEqual p e ∧ r = some e) else r = none
  | .find p, .elt r => if L.any (isEqual p) then (∃ e ∈ L, isEqual p e ∧ r = some e) else r = none
  | .each, .elts l => l.Perm L
  | .filter _, .unit => True
  | .count, .num n => n = L.length
  | _, _ => False

/-- A whole history is as observed on the abstract set. -/
def setOuts (isEqual : T → U → Bool) : List U → List (Op T U) → List (Out U) → Prop
  | _, [], [] => True
  | L, op :: ops, o :: os => setOut isEqual L op o ∧ setOuts isEqual (setStep isEqual L op) ops os
  | _, _, _ => False

def setRun (isEqual : T → U → Bool) (L : List U) (ops : List (Op T U)) : List U :=
  ops.foldl (setStep isEqual) L

/-- Consistency of equality test, hash and inserted values. An element is equal to the keys of one
equivalence class, and keys of one class have the same hash. -/
structure Consistent (isEqual : T → U → Bool) (h : T → Nat) : Prop where
  hash : ∀ p q e, isEqual p e → isEqual q e → h p = h q
  cls : ∀ p q e e', isEqual p e → isEqual q e → isEqual p e' → isEqual q e'

/-- The inserted value is equal to its key. -/
def OpOk (isEqual : T → U → Bool) : Op T U → Prop
  | .insert p u => isEqual p u
  | _ => True

end Cm.Spec
