import Verif.Model.Polyline
/-!
# Convex hulls

`convexHull`, `QHullReduce` and `QHullPartition` of polyshape.go. The slices `verts` and `result` of the recursion are parts of one array, and
the recursion writes the hull over the vertexes it has finished with; here the array is one list and a slice is its first index in it. An index
out of range, which panics, is `none`. `first` is `nil` in all calls in the package and is left out.
-/
namespace Cm

section
variable {K : Type} [Field K] [LinearOrder K]

/-- The loop of polyshape.go:267-281 on the slice from `base`, with `rem = tail - head + 1`; the result is the array, `head` and `pivot`. -/
def qloop (a delta : V2 K) (valueTol : K) (base : Nat) : (rem head : Nat) → List (V2 K) → (max : K) → (pivot : Nat) →
    Option (List (V2 K) × Nat × Nat)
  | 0, head, m, _, pivot => some (m, head, pivot)
  | rem + 1, head, m, max, pivot =>
    match m[base + head]?, m[base + head + rem]? with
    | some v, some w =>
      let value := (v.sub a).cross delta
      if value > valueTol then
        if value > max then qloop a delta valueTol base rem (head + 1) m value head
        else qloop a delta valueTol base rem (head + 1) m max pivot
      else qloop a delta valueTol base rem head ((m.set (base + head) w).set (base + head + rem) v) max pivot
    | _, _ => none

/-- `QHullPartition`: polyshape.go:255-288 -/
def qpartition (M : Mth K) (tol : K) (m : List (V2 K)) (base count : Nat) (a b : V2 K) : Option (List (V2 K) × Nat) :=
  if count = 0 then some (m, 0)
  else
    match qloop a (b.sub a) (tol * (b.sub a).mag M) base count 0 m 0 0 with
    | none => none
    | some (m, head, pivot) =>
      if pivot ≠ 0 then
        match m[base]?, m[base + pivot]? with
        | some x, some y => some ((m.set base y).set (base + pivot) x, head)
        | _, _ => none
      else some (m, head)

/-- The left half of `QHullReduce`, polyshape.go:240-243: nothing if no vertex is left, else the recursive call on the first one. -/
def qleft (m : List (V2 K)) (base leftCount : Nat) (call : V2 K → Option (List (V2 K) × Nat)) : Option (List (V2 K) × Nat) :=
  if leftCount = 0 then some (m, 0)
  else
    match m[base]? with
    | some p => call p
    | none => none

/-- `QHullReduce`: polyshape.go:234-253, recursion not deeper than the fuel; the slice `result` starts at `rbase`. -/
def qreduce (M : Mth K) (tol : K) : Nat → List (V2 K) → (base count : Nat) → (a pivot b : V2 K) → (rbase : Nat) → Option (List (V2 K) × Nat)
  | 0, _, _, _, _, _, _, _ => none
  | fuel + 1, m, base, count, a, pivot, b, rbase =>
    if count = 0 then
      if rbase < m.length then some (m.set rbase pivot, 1) else none
    else
      match qpartition M tol m base count a pivot with
      | none => none
      | some (m, leftCount) =>
        match qleft m base leftCount (fun p => qreduce M tol fuel m (base + 1) (leftCount - 1) a p pivot rbase) with
        | none => none
        | some (m, index) =>
          if rbase + index < m.length then
            match qpartition M tol (m.set (rbase + index) pivot) (base + leftCount) (count - leftCount) pivot b with
            | none => none
            | some (m, rightCount) =>
              if rightCount = 0 then some (m, index + 1)
              else
                match m[base + leftCount]? with
                | some p =>
                  match qreduce M tol fuel m (base + leftCount + 1) (rightCount - 1) pivot p b (rbase + index + 1) with
                  | some (m, k) => some (m, index + 1 + k)
                  | none => none
                | none => none
          else none

/-- Exchange of two elements. -/
def swapAt (m : List (V2 K)) (i j : Nat) : Option (List (V2 K)) :=
  match m[i]?, m[j]? with
  | some x, some y => some ((m.set i y).set j x)
  | _, _ => none

/-- `convexHull`: polyshape.go:186-210 on all of the vertexes; the result is the array and the number of vertexes of the hull. -/
def convexHull (M : Mth K) (tol : K) (m : List (V2 K)) : Option (List (V2 K) × Nat) :=
  if m.length = 0 then none
  else
    let se := loopIndexes m
    if se.1 = se.2 then some (m, 1)
    else
      match swapAt m 0 se.1 with
      | none => none
      | some m =>
        match swapAt m 1 (if se.2 = 0 then se.1 else se.2) with
        | none => none
        | some m =>
          match m[0]?, m[1]? with
          | some a, some b =>
            match qreduce M tol m.length m 2 (m.length - 2) a b a 1 with
            | some (m, k) => some (m, k + 1)
            | none => none
          | _, _ => none

/-- The vertexes of the hull: what `convexHull` leaves at the front of the array. -/
def hullVerts (M : Mth K) (m : List (V2 K)) : Option (List (V2 K)) :=
  match convexHull M 0 m with
  | some (m, k) => some (m.take k)
  | none => none

end
end Cm
