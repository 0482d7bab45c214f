import Verif.Model.SpaceHash
/-!
# Ray casts through the spatial hash: space_hash.go:225-319

The callback is a function of the shape giving the fraction it returns; the one of `SegmentQueryFirst` (space.go:1269-1283)
returns the least fraction so far, which makes the same bound. The loop has fuel; `C93_found_partial` shows that it ends.
-/

namespace Cm
namespace Hash
variable {K : Type} [Field K] [LinearOrder K] [FloorRing K]

/-- The variables of the loop of `SegmentQuery`: space_hash.go:249-297. -/
structure Walk (K : Type) where
  cx : Int
  cy : Int
  xInc : Int
  yInc : Int
  dtdx : K
  dtdy : K
  t : K
  nextH : K
  nextV : K

/-- `xInc` and `tempH`, `yInc` and `tempV`: space_hash.go:257-271. -/
def axisStart (a b : K) : Int × K := if b > a then (1, (⌊a + 1⌋ : K) - a) else (-1, a - (⌊a⌋ : K))

/-- `dtdx`, `dtdy`: space_hash.go:273-286. -/
def axisRate (inf a b : K) : K := if |b - a| ≠ 0 then 1 / |b - a| else inf

/-- `nextH`, `nextV`: space_hash.go:288-298. -/
def axisNext (inf a b : K) : K := if (axisStart a b).2 ≠ 0 then (axisStart a b).2 * axisRate inf a b else axisRate inf a b

/-- space_hash.go:251-298; `a` and `b` are in units of the cells. -/
def Walk.start (inf : K) (a b : V2 K) : Walk K :=
  ⟨goFloor a.x, goFloor a.y, (axisStart a.x b.x).1, (axisStart a.y b.y).1, axisRate inf a.x b.x, axisRate inf a.y b.y, 0,
    axisNext inf a.x b.x, axisNext inf a.y b.y⟩

/-- space_hash.go:304-312 -/
def Walk.next (w : Walk K) : Walk K :=
  if w.nextV < w.nextH then { w with cy := w.cy + w.yInc, t := w.nextV, nextV := w.nextV + w.dtdy }
  else { w with cx := w.cx + w.xInc, t := w.nextH, nextH := w.nextH + w.dtdx }

/-- The bound the shapes reported in a cell set: space_hash.go:226, 236. -/
def bound (f : Nat → K) (o : List Nat) : K := o.foldl (fun t x => min t (f x)) 1

/-- The loop: space_hash.go:300-313. `segmentQueryHelper` (space_hash.go:225-245) goes through the cell as `queryHelper` does
for an object that is no shape. The state, the shapes reported and the bound at the end. -/
def rayLoop (f : Nat → K) : Nat → K → Walk K → St → Option (St × List Nat × K)
  | 0, _, _, _ => none
  | n + 1, tExit, w, s =>
    if w.t < tExit then
      match queryCell none (hashFunc w.cx w.cy s.n) ((s.table (hashFunc w.cx w.cy s.n)).length + 1) s with
      | none => none
      | some r => match rayLoop f n (min tExit (bound f r.2)) w.next r.1 with
        | none => none
        | some q => some (q.1, r.2 ++ q.2.1, q.2.2)
    else some (s, [], tExit)

/-- `SegmentQuery`: space_hash.go:248-316. -/
def segmentQuery (dim inf : K) (s : St) (a b : V2 K) (tExit : K) (f : Nat → K) (fuel : Nat) : Option (St × List Nat × K) :=
  match rayLoop f fuel tExit (Walk.start inf (a.scale (1 / dim)) (b.scale (1 / dim))) s with
  | none => none
  | some r => some ({ r.1 with now := r.1.now + 1 }, r.2.1, r.2.2)

end Hash
end Cm
