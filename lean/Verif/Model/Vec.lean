import Mathlib.Algebra.Order.Field.Basic
import Mathlib.Algebra.Order.Floor.Ring
/-!
# Vectors

`github.com/setanarut/vec` (go.mod) is not in the sandbox. These are the usual meanings of the
operations used by `/repo`. `float64` is a linearly ordered field `K`.
-/
namespace Cm

/-- `vec.Vec2` -/
@[ext] structure V2 (K : Type) where
  x : K
  y : K
deriving Repr, DecidableEq

namespace V2
variable {K : Type}

/-- `vec.Vec2{}`. -/
def zero [Zero K] : V2 K := ⟨0, 0⟩
/-- `Vec2.Add` -/
def add [Add K] (a b : V2 K) : V2 K := ⟨a.x + b.x, a.y + b.y⟩
/-- `Vec2.Sub` -/
def sub [Sub K] (a b : V2 K) : V2 K := ⟨a.x - b.x, a.y - b.y⟩
/-- `Vec2.Neg` -/
def neg [Neg K] (a : V2 K) : V2 K := ⟨-a.x, -a.y⟩
/-- `Vec2.Scale` -/
def scale [Mul K] (a : V2 K) (s : K) : V2 K := ⟨a.x * s, a.y * s⟩
/-- `Vec2.Dot` -/
def dot [Mul K] [Add K] (a b : V2 K) : K := a.x * b.x + a.y * b.y
/-- `Vec2.Cross` -/
def cross [Mul K] [Sub K] (a b : V2 K) : K := a.x * b.y - a.y * b.x
/-- `Vec2.Perp`: counter-clockwise quarter turn. -/
def perp [Neg K] (a : V2 K) : V2 K := ⟨-a.y, a.x⟩
/-- `Vec2.ReversePerp`: clockwise quarter turn. -/
def rperp [Neg K] (a : V2 K) : V2 K := ⟨a.y, -a.x⟩
/-- `Vec2.LengthSq` -/
def lengthSq [Mul K] [Add K] (a : V2 K) : K := a.dot a
/-- `Vec2.DistanceSq` -/
def distanceSq [Mul K] [Add K] [Sub K] (a b : V2 K) : K := (a.sub b).lengthSq
/-- `Vec2.Lerp`: `a(1-t) + bt`. -/
def lerp [Mul K] [Add K] [Sub K] [One K] (a b : V2 K) (t : K) : V2 K := (a.scale (1 - t)).add (b.scale t)
/-- `Vec2.RotateComplex`: complex product. -/
def rotate [Mul K] [Add K] [Sub K] (a b : V2 K) : V2 K := ⟨a.x * b.x - a.y * b.y, a.x * b.y + a.y * b.x⟩

end V2

/-- `math.Abs` -/
def fabs {K : Type} [Neg K] [LinearOrder K] (x : K) : K := max x (-x)

theorem fabs_eq {K : Type} [Field K] [LinearOrder K] (x : K) : fabs x = |x| := rfl

/-- `BB`: bb.go:11-13 -/
@[ext] structure BB (K : Type) where
  L : K
  B : K
  R : K
  T : K
deriving Repr, DecidableEq

namespace BB
variable {K : Type}

section order
variable [LinearOrder K]

/-- bb.go:45-47 -/
def intersects (a b : BB K) : Bool :=
  decide (a.L ≤ b.R) && decide (b.L ≤ a.R) && decide (a.B ≤ b.T) && decide (b.B ≤ a.T)

/-- bb.go:50-52 -/
def contains (a o : BB K) : Bool :=
  decide (a.L ≤ o.L) && decide (a.R ≥ o.R) && decide (a.B ≤ o.B) && decide (a.T ≥ o.T)

/-- bb.go:55-57 -/
def containsVect (a : BB K) (v : V2 K) : Bool :=
  decide (a.L ≤ v.x) && decide (a.R ≥ v.x) && decide (a.B ≤ v.y) && decide (a.T ≥ v.y)

/-- bb.go:60-67 -/
def merge (a b : BB K) : BB K := ⟨min a.L b.L, min a.B b.B, max a.R b.R, max a.T b.T⟩

/-- bb.go:70-77 -/
def expand (a : BB K) (v : V2 K) : BB K := ⟨min a.L v.x, min a.B v.y, max a.R v.x, max a.T v.y⟩

end order

section field
variable [Zero K] [One K] [Add K] [Sub K] [Mul K] [Div K] [Neg K] [NatCast K] [LinearOrder K]

/-- bb.go:30-37 -/
def forExtents (c : V2 K) (hw hh : K) : BB K := ⟨c.x - hw, c.y - hh, c.x + hw, c.y + hh⟩

/-- bb.go:40-42 -/
def forCircle (p : V2 K) (r : K) : BB K := forExtents p r r

/-- bb.go:80-82 -/
def center (b : BB K) : V2 K := V2.lerp ⟨b.L, b.B⟩ ⟨b.R, b.T⟩ (1/2)

/-- bb.go:85-87 -/
def area (b : BB K) : K := (b.R - b.L) * (b.T - b.B)

/-- bb.go:90-92 -/
def mergedArea (a b : BB K) : K := (max a.R b.R - min a.L b.L) * (max a.T b.T - min a.B b.B)

/-- The block for one axis of bb.go:101-110 (and 112-121): `none` is the early `return infinity`. -/
def slab (a delta lo hi tmin tmax : K) : Option (K × K) :=
  if delta = 0 then
    if a < lo ∨ hi < a then none else some (tmin, tmax)
  else
    let t1 := (lo - a) / delta
    let t2 := (hi - a) / delta
    some (max tmin (min t1 t2), min tmax (max t1 t2))

/-- bb.go:96-128; `inf` is the constant `infinity` (everything.go:12). -/
def segmentQuery (inf : K) (bb : BB K) (a b : V2 K) : K :=
  let delta := b.sub a
  match slab a.x delta.x bb.L bb.R (-inf) inf with
  | none => inf
  | some (tmin, tmax) =>
    match slab a.y delta.y bb.B bb.T tmin tmax with
    | none => inf
    | some (tmin, tmax) =>
      if tmin ≤ tmax ∧ 0 ≤ tmax ∧ tmin ≤ 1 then max tmin 0 else inf

/-- bb.go:131-133 -/
def intersectsSegment (inf : K) (bb : BB K) (a b : V2 K) : Bool := !decide (segmentQuery inf bb a b = inf)

/-- bb.go:164-171 -/
def offset (b : BB K) (v : V2 K) : BB K := ⟨b.L + v.x, b.B + v.y, b.R + v.x, b.T + v.y⟩

/-- bb.go:173-175 -/
def proximity (a b : BB K) : K := fabs (a.L + a.R - b.L - b.R) + fabs (a.B + a.T - b.B - b.T)

end field
end BB

section
variable {K : Type} [Zero K] [One K] [Add K] [Sub K] [Mul K] [Div K] [Neg K] [NatCast K] [LinearOrder K]

/-- everything.go:307-313 -/
def clamp (f lo hi : K) : K := if f > lo then min f hi else min lo hi

/-- everything.go:249-251 -/
def clamp01 (f : K) : K := max 0 (min f 1)

/-- bb.go:136-138 -/
def BB.clampVect (b : BB K) (v : V2 K) : V2 K := ⟨clamp v.x b.L b.R, clamp v.y b.B b.T⟩

/-- everything.go:316-319 -/
def lerpT (a b : V2 K) (t : K) : V2 K :=
  let ht := 1/2 * t
  (a.scale (1/2 - ht)).add (b.scale (1/2 + ht))

/-- everything.go:325-328. For `a = b` the quotient is 0/0, a NaN, which is not greater than -1, so `clamp` returns -1 and the
result is 1. -/
def closestT (a b : V2 K) : K :=
  let delta := b.sub a;
  if delta.lengthSq = 0 then 1 else -(clamp (delta.dot (a.add b) / delta.lengthSq) (-1) 1)

/-- everything.go:321-323 -/
def closestDist (v0 v1 : V2 K) : K := (lerpT v0 v1 (closestT v0 v1)).lengthSq

/-- everything.go:330-334 -/
def closestPointOnSegment (v a b : V2 K) : V2 K :=
  let delta := a.sub b
  let t := clamp01 (delta.dot (v.sub b) / delta.lengthSq)
  b.add (delta.scale t)

/-- everything.go:336-338 -/
def checkAxis (v v1 p n : V2 K) : Bool := decide (p.dot n ≤ max (v.dot n) (v1.dot n))

/-- everything.go:340-342 -/
def pointGreater (v b c : V2 K) : Bool :=
  decide ((b.y - v.y) * (v.x + b.x - 2 * c.x) > (b.x - v.x) * (v.y + b.y - 2 * c.y))

end

section
variable {K : Type} [Field K] [LinearOrder K]

/-- Rounding towards zero, used by `math.Mod`. -/
def trunc [FloorRing K] (q : K) : ℤ := if 0 ≤ q then ⌊q⌋ else ⌈q⌉

/-- `math.Mod(x, y)` for `y ≠ 0`: the remainder has the sign of `x`. (For `y = 0` Go gives NaN, which is
not modelled.) -/
def goMod [FloorRing K] (x y : K) : K := x - y * (trunc (x / y) : K)

/-- One axis of bb.go:142-149. -/
def wrap1 [FloorRing K] (v lo hi : K) : K :=
  let d := |hi - lo|
  let m := goMod (v - lo) d
  (if m > 0 then m else m + d) + lo

/-- bb.go:141-161 -/
def BB.wrapVect [FloorRing K] (b : BB K) (v : V2 K) : V2 K := ⟨wrap1 v.x b.L b.R, wrap1 v.y b.B b.T⟩

end

/-- `Transform`: transform.go:28-30. The matrix acts by X' = a X + c Y + tx, Y' = b X + d Y + ty
(transform.go:156-161; the picture in the comment there has b and c exchanged). -/
@[ext] structure Transform (K : Type) where
  a : K
  b : K
  c : K
  d : K
  tx : K
  ty : K
deriving Repr, DecidableEq

namespace Transform
variable {K : Type} [Zero K] [One K] [Add K] [Sub K] [Mul K] [Div K] [Neg K] [NatCast K] [LinearOrder K]

/-- transform.go:44-46 -/
def identity : Transform K := ⟨1, 0, 0, 1, 0, 0⟩
/-- transform.go:54-61 (`NewTransform` and `NewTransformTranspose` are the same function). -/
def transpose (a c tx b d ty : K) : Transform K := ⟨a, b, c, d, tx, ty⟩
/-- transform.go:64-70 -/
def inverse (t : Transform K) : Transform K :=
  let invDet := 1 / (t.a * t.d - t.c * t.b)
  transpose (t.d * invDet) (-t.c * invDet) ((t.c * t.ty - t.tx * t.d) * invDet)
    (-t.b * invDet) (t.a * invDet) ((t.tx * t.b - t.a * t.ty) * invDet)
/-- transform.go:81-86 -/
def mult (t t2 : Transform K) : Transform K :=
  transpose (t.a * t2.a + t.c * t2.b) (t.a * t2.c + t.c * t2.d) (t.a * t2.tx + t.c * t2.ty + t.tx)
    (t.b * t2.a + t.d * t2.b) (t.b * t2.c + t.d * t2.d) (t.b * t2.tx + t.d * t2.ty + t.ty)
/-- transform.go:89-94 -/
def translate (v : V2 K) : Transform K := transpose 1 0 v.x 0 1 v.y
/-- transform.go:97-102 -/
def scaling (sx sy : K) : Transform K := transpose sx 0 0 0 sy 0
/-- transform.go:105-111, 127-133; `rot` is `vec.ForAngle(rotation)`. -/
def rigid (v rot : V2 K) : Transform K := transpose rot.x (-rot.y) v.x rot.y rot.x v.y
/-- transform.go:147-152 -/
def rigidInverse (t : Transform K) : Transform K :=
  transpose t.d (-t.c) (t.c * t.ty - t.tx * t.d) (-t.b) t.a (t.tx * t.b - t.a * t.ty)
/-- transform.go:156-161 -/
def apply (t : Transform K) (p : V2 K) : V2 K := ⟨t.a * p.x + t.c * p.y + t.tx, t.b * p.x + t.d * p.y + t.ty⟩
/-- transform.go:172-177 -/
def applyVector (t : Transform K) (p : V2 K) : V2 K := ⟨t.a * p.x + t.c * p.y, t.b * p.x + t.d * p.y⟩
/-- transform.go:190-201 -/
def bb (t : Transform K) (bb : BB K) : BB K :=
  let hw := (bb.R - bb.L) * (1/2)
  let hh := (bb.T - bb.B) * (1/2)
  let a := t.a * hw
  let b := t.c * hh
  let d := t.b * hw
  let e := t.d * hh
  let hwMax := max (fabs (a + b)) (fabs (a - b))
  let hhMax := max (fabs (d + e)) (fabs (d - e))
  BB.forExtents (t.apply bb.center) hwMax hhMax
/-- transform.go:212-214 -/
def wrap (t inner : Transform K) : Transform K := t.inverse.mult (inner.mult t)
/-- transform.go:224-229 (the receiver is not used) -/
def ortho (bb : BB K) : Transform K :=
  transpose (2 / (bb.R - bb.L)) 0 (-(bb.R + bb.L) / (bb.R - bb.L))
    0 (2 / (bb.T - bb.B)) (-(bb.T + bb.B) / (bb.T - bb.B))
/-- transform.go:241-247 -/
def boneScale (v0 v1 : V2 K) : Transform K :=
  let d := v1.sub v0
  transpose d.x (-d.y) v0.x d.y d.x v0.y
/-- transform.go:262-270 -/
def axialScale (axis pivot : V2 K) (scale : K) : Transform K :=
  let A := axis.x * axis.y * (scale - 1)
  let B := axis.dot pivot * (1 - scale)
  transpose (scale * axis.x * axis.x + axis.y * axis.y) A (axis.x * B)
    A (axis.x * axis.x + scale * axis.y * axis.y) (axis.y * B)
/-- transform.go:273-276 -/
def scale (t : Transform K) (x y : K) : Transform K := { t with a := t.a * x, d := t.d * y }

end Transform

/-- `ShapeFilter`: everything.go:172-182; `uint` is 64 bits. -/
structure ShapeFilter where
  group : BitVec 64
  categories : BitVec 64
  mask : BitVec 64
deriving Repr, DecidableEq

namespace ShapeFilter
/-- everything.go:192-196 -/
def reject (a b : ShapeFilter) : Bool :=
  (a.group != 0#64 && a.group == b.group) || (a.categories &&& b.mask) == 0#64 ||
    (b.categories &&& a.mask) == 0#64
/-- everything.go:41 -/
def all : ShapeFilter := ⟨0, BitVec.allOnes 64, BitVec.allOnes 64⟩
/-- everything.go:45 -/
def none : ShapeFilter := ⟨0, ~~~ (BitVec.allOnes 64), ~~~ (BitVec.allOnes 64)⟩
end ShapeFilter

end Cm
