import Verif.Model.Vec
import Verif.Model.Polyline
/-!
# Marching squares

utils/march/march.go. The sampling function is a pure function of the point; the segment function and the polyline set are replaced by the
list of its calls in order, which `collectAll` (Model/Polyline) turns into the set when the segment function is `CollectSegment`. At least two
samples in each direction are assumed, so that the denominators are not infinite.
-/
namespace Cm

section
variable {K : Type} [Field K] [LinearOrder K]

/-- `lerp`: march.go:327-329 -/
def mlerp (f1 f2 t : K) : K := f1 * (1 - t) + f2 * t

/-- `Midlerp`: march.go:95-97 -/
def midlerp (x0 x1 s0 s1 t : K) : K := mlerp x0 x1 ((t - s0) / (s1 - s0))

/-- `Seg`: march.go:89-93, the calls of `marchSeg`. -/
def mseg (v0 v1 : V2 K) : List (V2 K × V2 K) := if v0 = v1 then [] else [(v1, v0)]

/-- `Segs`: march.go:249-252 -/
def msegs (a b c : V2 K) : List (V2 K × V2 K) := mseg b c ++ mseg a b

/-- The arguments of a call of `marchCell` but the threshold and the segment function: march.go:82 -/
structure MCell (K : Type) where
  a : K
  b : K
  c : K
  d : K
  x0 : K
  x1 : K
  y0 : K
  y1 : K
deriving DecidableEq

/-- The value switched on by march.go:121 and 279. -/
def MCell.code (q : MCell K) (t : K) : Nat :=
  (if q.a > t then 1 else 0) + (if q.b > t then 2 else 0) + (if q.c > t then 4 else 0) + (if q.d > t then 8 else 0)

/-- `MarchCellSoft`: march.go:99-233 -/
def softCell (t : K) (q : MCell K) : List (V2 K × V2 K) :=
  let left : V2 K := ⟨q.x0, midlerp q.y0 q.y1 q.a q.c t⟩
  let right : V2 K := ⟨q.x1, midlerp q.y0 q.y1 q.b q.d t⟩
  let bottom : V2 K := ⟨midlerp q.x0 q.x1 q.a q.b t, q.y0⟩
  let top : V2 K := ⟨midlerp q.x0 q.x1 q.c q.d t, q.y1⟩
  match q.code t with
  | 0x1 => mseg left bottom
  | 0x2 => mseg bottom right
  | 0x3 => mseg left right
  | 0x4 => mseg top left
  | 0x5 => mseg top bottom
  | 0x6 => mseg bottom right ++ mseg top left
  | 0x7 => mseg top right
  | 0x8 => mseg right top
  | 0x9 => mseg left bottom ++ mseg right top
  | 0xA => mseg bottom top
  | 0xB => mseg left top
  | 0xC => mseg right left
  | 0xD => mseg right bottom
  | 0xE => mseg bottom left
  | _ => []

/-- `MarchCellHard`: march.go:254-311 -/
def hardCell (t : K) (q : MCell K) : List (V2 K × V2 K) :=
  let xm := mlerp q.x0 q.x1 (1 / 2)
  let ym := mlerp q.y0 q.y1 (1 / 2)
  match q.code t with
  | 0x1 => msegs ⟨q.x0, ym⟩ ⟨xm, ym⟩ ⟨xm, q.y0⟩
  | 0x2 => msegs ⟨xm, q.y0⟩ ⟨xm, ym⟩ ⟨q.x1, ym⟩
  | 0x3 => mseg ⟨q.x0, ym⟩ ⟨q.x1, ym⟩
  | 0x4 => msegs ⟨xm, q.y1⟩ ⟨xm, ym⟩ ⟨q.x0, ym⟩
  | 0x5 => mseg ⟨xm, q.y1⟩ ⟨xm, q.y0⟩
  | 0x6 => msegs ⟨xm, q.y0⟩ ⟨xm, ym⟩ ⟨q.x0, ym⟩ ++ msegs ⟨xm, q.y1⟩ ⟨xm, ym⟩ ⟨q.x1, ym⟩
  | 0x7 => msegs ⟨xm, q.y1⟩ ⟨xm, ym⟩ ⟨q.x1, ym⟩
  | 0x8 => msegs ⟨q.x1, ym⟩ ⟨xm, ym⟩ ⟨xm, q.y1⟩
  | 0x9 => msegs ⟨q.x1, ym⟩ ⟨xm, ym⟩ ⟨xm, q.y0⟩ ++ msegs ⟨q.x0, ym⟩ ⟨xm, ym⟩ ⟨xm, q.y1⟩
  | 0xA => mseg ⟨xm, q.y0⟩ ⟨xm, q.y1⟩
  | 0xB => msegs ⟨q.x0, ym⟩ ⟨xm, ym⟩ ⟨xm, q.y1⟩
  | 0xC => mseg ⟨q.x1, ym⟩ ⟨q.x0, ym⟩
  | 0xD => msegs ⟨q.x1, ym⟩ ⟨xm, ym⟩ ⟨xm, q.y0⟩
  | 0xE => msegs ⟨xm, q.y0⟩ ⟨xm, ym⟩ ⟨q.x0, ym⟩
  | _ => []

/-- What has happened so far: the points passed to `marchSample` and the calls of `marchCell`. -/
structure MLog (K : Type) where
  points : List (V2 K)
  cells : List (MCell K)

/-- The loop of march.go:72-83 with `rem` rounds left, at `i`, with the values of `b`, `d` and the buffer. -/
def marchCols (sample : V2 K → K) (bb : BB K) (xDenom y0 y1 : K) : (rem i : Nat) → (b d : K) → List K → MLog K → List K × MLog K
  | 0, _, _, _, buffer, log => (buffer, log)
  | rem + 1, i, b, d, buffer, log =>
    let x0 := mlerp bb.L bb.R ((i : K) * xDenom)
    let x1 := mlerp bb.L bb.R (((i + 1 : Nat) : K) * xDenom)
    let a := b
    let b := buffer.getD (i + 1) 0
    let c := d
    let d := sample ⟨x1, y1⟩
    marchCols sample bb xDenom y0 y1 rem (i + 1) b d (buffer.set (i + 1) d)
      ⟨log.points ++ [⟨x1, y1⟩], log.cells ++ [⟨a, b, c, d, x0, x1, y0, y1⟩]⟩

/-- The loop of march.go:62-84 with `rem` rounds left, at `j`. -/
def marchRows (sample : V2 K → K) (bb : BB K) (xDenom yDenom : K) (xSamples : Nat) : (rem j : Nat) → List K → MLog K → MLog K
  | 0, _, _, log => log
  | rem + 1, j, buffer, log =>
    let y0 := mlerp bb.B bb.T ((j : K) * yDenom)
    let y1 := mlerp bb.B bb.T (((j + 1 : Nat) : K) * yDenom)
    let b := buffer.getD 0 0
    let d := sample ⟨bb.L, y1⟩
    let r := marchCols sample bb xDenom y0 y1 (xSamples - 1) 0 b d (buffer.set 0 d) ⟨log.points ++ [⟨bb.L, y1⟩], log.cells⟩
    marchRows sample bb xDenom yDenom xSamples rem (j + 1) r.1 r.2

/-- `MarchCells`: march.go:43-87 -/
def marchCells (sample : V2 K → K) (bb : BB K) (xSamples ySamples : Nat) : MLog K :=
  let xDenom := 1 / ((xSamples - 1 : Nat) : K)
  let yDenom := 1 / ((ySamples - 1 : Nat) : K)
  let first := (List.range xSamples).map fun i : Nat => (⟨mlerp bb.L bb.R ((i : K) * xDenom), bb.B⟩ : V2 K)
  marchRows sample bb xDenom yDenom xSamples (ySamples - 1) 0 (first.map sample) ⟨first, []⟩

/-- The calls of the segment function by `MarchSoft`: march.go:239-247 -/
def marchSoft (sample : V2 K → K) (bb : BB K) (xSamples ySamples : Nat) (t : K) : List (V2 K × V2 K) :=
  (marchCells sample bb xSamples ySamples).cells.flatMap (softCell t)

/-- The calls of the segment function by `MarchHard`: march.go:317-325 -/
def marchHard (sample : V2 K → K) (bb : BB K) (xSamples ySamples : Nat) (t : K) : List (V2 K × V2 K) :=
  (marchCells sample bb xSamples ySamples).cells.flatMap (hardCell t)

end
end Cm
