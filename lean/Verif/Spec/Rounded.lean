import Verif.Model.Vec
/-! # Arithmetic that rounds

The definitions of the models use the operations of numbers, not their laws, so that they can be read in any arithmetic. `Rounded` lists laws that hold
exactly both in ordered fields and in floating point arithmetic, as long as no result overflows or is a NaN: every operation gives the exact result,
rounded by a function that is monotone, odd, and changes nothing that needs no rounding. Signed zeros are one number. -/
namespace Cm
namespace Spec

/-- Laws that rounding does not break. There is no associativity, no distributivity and no cancellation. -/
class Rounded (K : Type) [Zero K] [One K] [Add K] [Sub K] [Mul K] [Div K] [Neg K] [NatCast K] [LinearOrder K] : Prop where
  add_zero : ∀ x : K, x + 0 = x
  zero_add : ∀ x : K, 0 + x = x
  sub_zero : ∀ x : K, x - 0 = x
  sub_self : ∀ x : K, x - x = 0
  mul_zero : ∀ x : K, x * 0 = 0
  zero_mul : ∀ x : K, 0 * x = 0
  mul_one : ∀ x : K, x * 1 = x
  add_comm : ∀ x y : K, x + y = y + x
  mul_comm : ∀ x y : K, x * y = y * x
  zero_div : ∀ x : K, 0 / x = 0
  neg_zero : -(0 : K) = 0
  neg_neg : ∀ x : K, -(-x) = x
  neg_le_neg : ∀ x y : K, x ≤ y → -y ≤ -x
  add_le_add : ∀ x y z : K, x ≤ y → z + x ≤ z + y
  sub_nonneg : ∀ x y : K, x ≤ y → 0 ≤ y - x
  sub_le_sub : ∀ x y z w : K, x ≤ y → w ≤ z → x - z ≤ y - w
  mul_nonneg : ∀ x y : K, 0 ≤ x → 0 ≤ y → 0 ≤ x * y
  mul_le_mul : ∀ x y z : K, 0 ≤ z → x ≤ y → x * z ≤ y * z
  neg_mul : ∀ x y : K, -x * y = -(x * y)
  div_nonneg : ∀ x y : K, 0 ≤ x → 0 ≤ y → 0 ≤ x / y
  zero_le_one : (0 : K) ≤ 1
  nat_nonneg : ∀ n : ℕ, (0 : K) ≤ (n : K)

/-- Exact arithmetic is a special case. -/
instance {K : Type} [Field K] [LinearOrder K] [IsStrictOrderedRing K] : Rounded K where
  add_zero := _root_.add_zero
  zero_add := _root_.zero_add
  sub_zero := _root_.sub_zero
  sub_self := _root_.sub_self
  mul_zero := MulZeroClass.mul_zero
  zero_mul := MulZeroClass.zero_mul
  mul_one := _root_.mul_one
  add_comm := _root_.add_comm
  mul_comm := _root_.mul_comm
  zero_div := _root_.zero_div
  neg_zero := _root_.neg_zero
  neg_neg := _root_.neg_neg
  neg_le_neg := fun _ _ h => _root_.neg_le_neg h
  add_le_add := fun _ _ z h => add_le_add_right h z
  sub_nonneg := fun _ _ h => _root_.sub_nonneg.2 h
  sub_le_sub := fun _ _ _ _ h1 h2 => _root_.sub_le_sub h1 h2
  mul_nonneg := fun _ _ h1 h2 => _root_.mul_nonneg h1 h2
  mul_le_mul := fun _ _ _ hz h => mul_le_mul_of_nonneg_right h hz
  neg_mul := _root_.neg_mul
  div_nonneg := fun _ _ h1 h2 => _root_.div_nonneg h1 h2
  zero_le_one := _root_.zero_le_one
  nat_nonneg := fun n => Nat.cast_nonneg n

/-- A way of rounding the numbers of `F`: towards the nearest number that can be represented, towards zero, and so on. -/
structure Rounding (F : Type) [Field F] [LinearOrder F] where
  r : F → F
  mono : ∀ x y, x ≤ y → r x ≤ r y
  idem : ∀ x, r (r x) = r x
  odd : ∀ x, r (-x) = -r x
  one : r 1 = 1

/-- The numbers that can be represented. -/
def Rounding.Fl {F : Type} [Field F] [LinearOrder F] (R : Rounding F) : Type := {x : F // R.r x = x}

namespace Rounding
variable {F : Type} [Field F] [LinearOrder F] [IsStrictOrderedRing F] (R : Rounding F)

theorem zero : R.r 0 = 0 := by
  have := R.odd 0
  rw [_root_.neg_zero] at this
  linarith

/-- The number that represents an exact result. -/
def rnd (x : F) : R.Fl := ⟨R.r x, R.idem x⟩

instance : LinearOrder R.Fl := inferInstanceAs (LinearOrder {x : F // R.r x = x})
instance : Zero R.Fl := ⟨⟨0, R.zero⟩⟩
instance : One R.Fl := ⟨⟨1, R.one⟩⟩
instance : Add R.Fl := ⟨fun x y => R.rnd (x.1 + y.1)⟩
instance : Sub R.Fl := ⟨fun x y => R.rnd (x.1 - y.1)⟩
instance : Mul R.Fl := ⟨fun x y => R.rnd (x.1 * y.1)⟩
instance : Div R.Fl := ⟨fun x y => R.rnd (x.1 / y.1)⟩
instance : Neg R.Fl := ⟨fun x => ⟨-x.1, by rw [R.odd, x.2]⟩⟩
instance : NatCast R.Fl := ⟨fun n => R.rnd n⟩

theorem nonneg {x : F} (h : 0 ≤ x) : 0 ≤ R.r x := by
  have := R.mono 0 x h
  rwa [R.zero] at this

/-- Rounded arithmetic has the laws. -/
instance : Rounded R.Fl where
  add_zero := fun x => Subtype.ext (by show R.r (x.1 + 0) = x.1; rw [_root_.add_zero, x.2])
  zero_add := fun x => Subtype.ext (by show R.r (0 + x.1) = x.1; rw [_root_.zero_add, x.2])
  sub_zero := fun x => Subtype.ext (by show R.r (x.1 - 0) = x.1; rw [_root_.sub_zero, x.2])
  sub_self := fun x => Subtype.ext (by show R.r (x.1 - x.1) = 0; rw [_root_.sub_self, R.zero])
  mul_zero := fun x => Subtype.ext (by show R.r (x.1 * 0) = 0; rw [MulZeroClass.mul_zero, R.zero])
  zero_mul := fun x => Subtype.ext (by show R.r (0 * x.1) = 0; rw [MulZeroClass.zero_mul, R.zero])
  mul_one := fun x => Subtype.ext (by show R.r (x.1 * 1) = x.1; rw [_root_.mul_one, x.2])
  add_comm := fun x y => Subtype.ext (by show R.r (x.1 + y.1) = R.r (y.1 + x.1); rw [_root_.add_comm])
  mul_comm := fun x y => Subtype.ext (by show R.r (x.1 * y.1) = R.r (y.1 * x.1); rw [_root_.mul_comm])
  zero_div := fun x => Subtype.ext (by show R.r (0 / x.1) = 0; rw [_root_.zero_div, R.zero])
  neg_zero := Subtype.ext (by show -(0 : F) = 0; rw [_root_.neg_zero])
  neg_neg := fun x => Subtype.ext (by show -(-x.1) = x.1; rw [_root_.neg_neg])
  neg_le_neg := fun x y h => by show -y.1 ≤ -x.1; exact _root_.neg_le_neg (show x.1 ≤ y.1 from h)
  add_le_add := fun x y z h => by show R.r (z.1 + x.1) ≤ R.r (z.1 + y.1); exact R.mono _ _ (add_le_add_right (show x.1 ≤ y.1 from h) z.1)
  sub_nonneg := fun x y h => by show 0 ≤ R.r (y.1 - x.1); exact R.nonneg (_root_.sub_nonneg.2 (show x.1 ≤ y.1 from h))
  sub_le_sub := fun x y z w h1 h2 => by show R.r (x.1 - z.1) ≤ R.r (y.1 - w.1); exact R.mono _ _ (_root_.sub_le_sub (show x.1 ≤ y.1 from h1) (show w.1 ≤ z.1 from h2))
  mul_nonneg := fun x y h1 h2 => by show 0 ≤ R.r (x.1 * y.1); exact R.nonneg (_root_.mul_nonneg (show 0 ≤ x.1 from h1) (show 0 ≤ y.1 from h2))
  mul_le_mul := fun x y z hz h => by show R.r (x.1 * z.1) ≤ R.r (y.1 * z.1); exact R.mono _ _ (mul_le_mul_of_nonneg_right (show x.1 ≤ y.1 from h) (show 0 ≤ z.1 from hz))
  neg_mul := fun x y => Subtype.ext (by show R.r (-x.1 * y.1) = -R.r (x.1 * y.1); rw [_root_.neg_mul, R.odd])
  div_nonneg := fun x y h1 h2 => by show 0 ≤ R.r (x.1 / y.1); exact R.nonneg (_root_.div_nonneg (show 0 ≤ x.1 from h1) (show 0 ≤ y.1 from h2))
  zero_le_one := by show (0 : F) ≤ 1; exact _root_.zero_le_one
  nat_nonneg := fun n => by show 0 ≤ R.r (n : F); exact R.nonneg (Nat.cast_nonneg n)

end Rounding
end Spec
end Cm
