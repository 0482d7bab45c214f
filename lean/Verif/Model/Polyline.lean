import Verif.Model.Body
/-!
# Polylines

polyline.go, and `loopIndexes` of polyshape.go. The slice `Verts` of a `PolyLine` is a list, a `PolyLineSet` the list of its lines.
`Vec2.Equal` is equality. Slice indexes out of range, which panic, are `none`. A line whose `Verts` is `nil` is the empty list; a
slice that is empty without being `nil`, on which `FindEnds` panics, is not modelled.
-/
namespace Cm

section
variable {K : Type} [Field K] [LinearOrder K]

/-- `PolyLine`: polyline.go:9-11 -/
abbrev Line (K : Type) := List (V2 K)

/-! ## Collecting segments -/

/-- polyline.go:150-157; `none` is -1 -/
def findEnds (lines : List (Line K)) (v : V2 K) : Option Nat := lines.findIdx? fun l => l.getLast? == some v

/-- polyline.go:160-167; `none` is -1 -/
def findStarts (lines : List (Line K)) (v : V2 K) : Option Nat := lines.findIdx? fun l => l.head? == some v

/-- polyline.go:177-181 -/
def joinLines (lines : List (Line K)) (before after : Nat) : List (Line K) :=
  (lines.set before (lines.getD before [] ++ lines.getD after [])).eraseIdx after

/-- `Lines[i].Push(v)`: polyline.go:21-24 -/
def pushLine (lines : List (Line K)) (i : Nat) (v : V2 K) : List (Line K) := lines.set i (lines.getD i [] ++ [v])

/-- `Lines[i].Enqueue(v)`: polyline.go:26-29 -/
def enqueueLine (lines : List (Line K)) (i : Nat) (v : V2 K) : List (Line K) := lines.set i (v :: lines.getD i [])

/-- polyline.go:185-203 -/
def collectSegment (v0 v1 : V2 K) (lines : List (Line K)) : List (Line K) :=
  match findEnds lines v0, findStarts lines v1 with
  | some before, some after => if before = after then pushLine lines before v1 else joinLines lines before after
  | some before, none => pushLine lines before v1
  | none, some after => enqueueLine lines after v0
  | none, none => lines ++ [[v0, v1]]

/-- Collecting segments one after the other. -/
def collectAll (segs : List (V2 K × V2 K)) (lines : List (Line K)) : List (Line K) :=
  segs.foldl (fun ls s => collectSegment s.1 s.2 ls) lines

/-! ## Simplification -/

/-- polyline.go:17-19 -/
def sharpness (M : Mth K) (a b c : V2 K) : K := ((a.sub b).unit M).dot ((c.sub b).unit M)

/-- polyline.go:31-33 -/
def isClosed (verts : Line K) : Bool := decide (verts.length > 1) && (verts.head? == verts.getLast?)

/-- One round of the loop of polyline.go:61-69 on `reduced.Verts`, which has at least two elements. -/
def simplifyStep (M : Mth K) (minSharp : K) (reduced : Line K) (vert : V2 K) : Line K :=
  if sharpness M (reduced.getD (reduced.length - 2) V2.zero) (reduced.getD (reduced.length - 1) V2.zero) vert ≤ minSharp then
    reduced.set (reduced.length - 1) vert
  else reduced ++ [vert]

/-- polyline.go:57-75; `cosTol` is `math.Cos(tol)`. -/
def simplifyVertexes (M : Mth K) (cosTol : K) : Line K → Option (Line K)
  | v0 :: v1 :: rest =>
    let minSharp := -cosTol
    let reduced := rest.foldl (simplifyStep M minSharp) [v0, v1]
    if isClosed (v0 :: v1 :: rest) &&
        decide (sharpness M (reduced.getD (reduced.length - 2) V2.zero) (reduced.getD 0 V2.zero) (reduced.getD 1 V2.zero) < minSharp) then
      some (reduced.set 0 (reduced.getD (reduced.length - 2) V2.zero))
    else some reduced
  | _ => none

/-- The number of steps from `start` to `end` around a loop of `length` vertexes: the expression of polyline.go:85. -/
def gap (length start stop : Nat) : Nat := (stop + length - start) % length

/-- The values of `i` in `for i := start; i != end; i = next(i, count)`: polyline.go:46 and 205-207. -/
def loopFrom (length start stop : Nat) : List Nat := (List.range (gap length start stop)).map fun k => (start + k) % length

/-- The loop of polyline.go:46-51 over the remaining indexes. -/
def isShortGo (M : Mth K) (verts : Line K) (count : Nat) (min : K) : List Nat → K → Option Bool
  | [], _ => some true
  | i :: is, len =>
    match verts[i]?, verts[(i + 1) % count]? with
    | some a, some b => if len + (a.sub b).mag M > min then some false else isShortGo M verts count min is (len + (a.sub b).mag M)
    | _, _ => none

/-- polyline.go:44-53 -/
def isShort (M : Mth K) (verts : Line K) (count start stop : Nat) (min : K) : Option Bool :=
  isShortGo M verts count min (loopFrom count start stop) 0

/-- The loop of polyline.go:104-111 over the remaining indexes; the result is `max` and `maxi`. -/
def scanMax (n : V2 K) (d : K) (verts : Line K) : List Nat → K → Nat → Option (K × Nat)
  | [], mx, mi => some (mx, mi)
  | i :: is, mx, mi =>
    match verts[i]? with
    | some v => if |n.dot v - d| > mx then scanMax n d verts is |n.dot v - d| i else scanMax n d verts is mx mi
    | none => none

/-- polyline.go:78-120. `none` is a panic, or the recursion being deeper than `fuel`. -/
def douglasPeucker (M : Mth K) (verts : Line K) (length : Nat) (min tol : K) : Nat → Line K → Nat → Nat → Option (Line K)
  | 0, _, _, _ => none
  | fuel + 1, reduced, start, stop =>
    if gap length start stop < 2 then some reduced
    else
      match verts[start]?, verts[stop]? with
      | some a, some b =>
        let split :=
          let n := (b.sub a).perp.unit M
          match scanMax n (n.dot a) verts (loopFrom length start stop).tail 0 start with
          | none => none
          | some (mx, maxi) =>
            if mx > tol then
              match douglasPeucker M verts length min tol fuel reduced start maxi, verts[maxi]? with
              | some r, some v => douglasPeucker M verts length min tol fuel (r ++ [v]) maxi stop
              | _, _ => none
            else some reduced
        if a.distanceSq b < min * min then
          match isShort M reduced length start stop min with
          | none => none
          | some true => some reduced
          | some false => split
        else split
      | _, _ => none

/-- One round of the loop of polyshape.go:219-230 with the index `i`; the state is start, end, min, max. -/
def loopStep (st : Nat × Nat × V2 K × V2 K) (i : Nat) (v : V2 K) : Nat × Nat × V2 K × V2 K :=
  if v.x < st.2.2.1.x ∨ (v.x = st.2.2.1.x ∧ v.y < st.2.2.1.y) then (i, st.2.1, v, st.2.2.2)
  else if v.x > st.2.2.2.x ∨ (v.x = st.2.2.2.x ∧ v.y > st.2.2.2.y) then (st.1, i, st.2.2.1, v)
  else st

/-- The loop of polyshape.go:219-230 over the vertexes from index `i` on. -/
def loopGo : List (V2 K) → Nat → Nat × Nat × V2 K × V2 K → Nat × Nat × V2 K × V2 K
  | [], _, st => st
  | v :: l, i, st => loopGo l (i + 1) (loopStep st i v)

/-- polyshape.go:212-232 on the first `count` vertexes, of which there is at least one. -/
def loopIndexes (verts : List (V2 K)) : Nat × Nat :=
  match verts with
  | [] => (0, 0)
  | v :: l => let st := loopGo l 1 (0, 0, v, v); (st.1, st.2.1)

/-- polyline.go:125-147; `depth` bounds the recursion. -/
def simplifyCurves (M : Mth K) (tol : K) (depth : Nat) (verts : Line K) : Option (Line K) :=
  let min := tol / 2
  if isClosed verts then
    let length := verts.length - 1
    let se := loopIndexes (verts.take length)
    match verts[se.1]?, verts[se.2]? with
    | some s, some e =>
      match douglasPeucker M verts length min tol depth [s] se.1 se.2 with
      | some r =>
        match douglasPeucker M verts length min tol depth (r ++ [e]) se.2 se.1 with
        | some r => some (r ++ [s])
        | none => none
      | none => none
    | _, _ => none
  else
    match verts[0]?, verts[verts.length - 1]? with
    | some s, some e =>
      match douglasPeucker M verts verts.length min tol depth [s] 0 (verts.length - 1) with
      | some r => some (r ++ [e])
      | none => none
    | _, _ => none

end
end Cm
