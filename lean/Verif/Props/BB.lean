import Verif.Model.Vec
import Mathlib.Tactic.Linarith
import Mathlib.Tactic.Ring
import Mathlib.Tactic.LinearCombination
import Mathlib.Tactic.FieldSimp
import Mathlib.Tactic.NormNum
import Mathlib.Data.Rat.Floor
/-! # C05, C13, C14, C15, C41, C42, C63: filters, boxes, transforms, closest points -/
set_option linter.unusedSectionVars false

namespace Cm

/-! ## Specification: a box is a set of points, a segment is a set of points -/
namespace Spec
section
variable {K : Type} [LinearOrder K]

/-- The point lies in the box. -/
def InBox (b : BB K) (v : V2 K) : Prop := b.L ≤ v.x ∧ v.x ≤ b.R ∧ b.B ≤ v.y ∧ v.y ≤ b.T
/-- The box is not inside out. -/
def Proper (b : BB K) : Prop := b.L ≤ b.R ∧ b.B ≤ b.T
/-- Inclusion of boxes, as intervals. -/
def Incl (a b : BB K) : Prop := b.L ≤ a.L ∧ a.R ≤ b.R ∧ b.B ≤ a.B ∧ a.T ≤ b.T
end

variable {K : Type} [Field K] [LinearOrder K]
/-- The point at fraction `t` of the way from `a` to `b`. -/
def At (a b : V2 K) (t : K) : V2 K := ⟨a.x + t * (b.x - a.x), a.y + t * (b.y - a.y)⟩
/-- Squared distance. -/
def dist2 (a b : V2 K) : K := (a.x - b.x) ^ 2 + (a.y - b.y) ^ 2
end Spec
open Spec

/-! ## C05 -/

theorem C05_reject_symm (a b : ShapeFilter) : a.reject b = b.reject a := by
  unfold ShapeFilter.reject
  have h1 : (a.group != 0#64 && a.group == b.group) = (b.group != 0#64 && b.group == a.group) := by
    by_cases h : a.group = b.group
    · rw [h]
    · have h' : ¬ b.group = a.group := fun e => h e.symm
      rw [beq_eq_false_iff_ne.2 h, beq_eq_false_iff_ne.2 h', Bool.and_false, Bool.and_false]
  rw [h1]
  cases (b.group != 0#64 && b.group == a.group) <;> cases ((a.categories &&& b.mask) == 0#64) <;>
    cases ((b.categories &&& a.mask) == 0#64) <;> rfl

/-- Same non-zero group: rejected. -/
theorem C05_same_group (a b : ShapeFilter) (h : a.group ≠ 0#64) (hg : a.group = b.group) : a.reject b = true := by
  unfold ShapeFilter.reject
  simp [← hg, h]

/-- `ShapeFilterNone` rejects everything, including itself. -/
theorem C05_none_rejects (a : ShapeFilter) : ShapeFilter.none.reject a = true ∧ a.reject ShapeFilter.none = true := by
  have h : ShapeFilter.none.reject a = true := by
    unfold ShapeFilter.reject ShapeFilter.none
    simp
  exact ⟨h, by rw [C05_reject_symm]; exact h⟩

/-- Accepted exactly when the groups allow it and some category bit of each is in the mask of the other. -/
theorem C05_accept_iff (a b : ShapeFilter) :
    a.reject b = false ↔ (a.group = 0#64 ∨ a.group ≠ b.group) ∧
      (∃ i < 64, a.categories.getLsbD i = true ∧ b.mask.getLsbD i = true) ∧
      (∃ i < 64, b.categories.getLsbD i = true ∧ a.mask.getLsbD i = true) := by
  have key : ∀ x y : BitVec 64, ¬ (x &&& y = 0#64) ↔ ∃ i < 64, x.getLsbD i = true ∧ y.getLsbD i = true := by
    intro x y
    constructor
    · intro h
      by_contra hcon
      apply h
      apply BitVec.eq_of_getLsbD_eq
      intro i hi
      rw [BitVec.getLsbD_and, BitVec.getLsbD_zero, Bool.and_eq_false_iff]
      by_contra h2
      apply hcon
      refine ⟨i, hi, ?_⟩
      rw [not_or] at h2
      simpa using h2
    · rintro ⟨i, hi, h1, h2⟩ h
      have : (x &&& y).getLsbD i = false := by rw [h, BitVec.getLsbD_zero]
      rw [BitVec.getLsbD_and, h1, h2] at this
      cases this
  rw [← key, ← key]
  unfold ShapeFilter.reject
  simp only [Bool.or_eq_false_iff, Bool.and_eq_false_iff, bne_eq_false_iff_eq, beq_eq_false_iff_ne, ne_eq, and_assoc]

/-- `ShapeFilterAll` accepts a filter exactly when that filter has some category and some mask bit. -/
theorem C05_all_accepts (a : ShapeFilter) :
    ShapeFilter.all.reject a = false ↔ a.mask ≠ 0#64 ∧ a.categories ≠ 0#64 := by
  unfold ShapeFilter.reject ShapeFilter.all
  rw [BitVec.allOnes_and, BitVec.and_allOnes]
  simp

example : (ShapeFilter.mk 3 1 6).reject ⟨4, 2, 1⟩ = false := by decide
example : (ShapeFilter.mk 3 1 6).reject ⟨3, 2, 1⟩ = true := by decide

/-! ## C14: box algebra -/
section
variable {K : Type} [LinearOrder K]

theorem BB.contains_iff (a b : BB K) : a.contains b = true ↔ Incl b a := by
  simp [BB.contains, Incl, and_assoc]

theorem BB.intersects_iff (a b : BB K) :
    a.intersects b = true ↔ a.L ≤ b.R ∧ b.L ≤ a.R ∧ a.B ≤ b.T ∧ b.B ≤ a.T := by
  simp [BB.intersects, and_assoc]

/-- `ContainsVect` is membership. -/
theorem C14_containsVect (b : BB K) (v : V2 K) : b.containsVect v = true ↔ InBox b v := by
  simp [BB.containsVect, InBox, and_assoc]

/-- For proper `b`, `Contains` is inclusion of point sets. -/
theorem C14_contains (a b : BB K) (hb : Proper b) :
    a.contains b = true ↔ ∀ v, InBox b v → InBox a v := by
  rw [BB.contains_iff]
  constructor
  · rintro ⟨h1, h2, h3, h4⟩ v ⟨h5, h6, h7, h8⟩
    exact ⟨h1.trans h5, h6.trans h2, h3.trans h7, h8.trans h4⟩
  · intro h
    have h1 := h ⟨b.L, b.B⟩ ⟨le_refl _, hb.1, le_refl _, hb.2⟩
    have h2 := h ⟨b.R, b.T⟩ ⟨hb.1, le_refl _, hb.2, le_refl _⟩
    exact ⟨h1.1, h2.2.1, h1.2.2.1, h2.2.2.2⟩

/-- For proper boxes, `Intersects` holds exactly when there is a common point. -/
theorem C14_intersects (a b : BB K) (ha : Proper a) (hb : Proper b) :
    a.intersects b = true ↔ ∃ v, InBox a v ∧ InBox b v := by
  rw [BB.intersects_iff]
  constructor
  · rintro ⟨h1, h2, h3, h4⟩
    refine ⟨⟨max a.L b.L, max a.B b.B⟩, ⟨le_max_left _ _, max_le ha.1 h2, le_max_left _ _, max_le ha.2 h4⟩,
      ⟨le_max_right _ _, max_le h1 hb.1, le_max_right _ _, max_le h3 hb.2⟩⟩
  · rintro ⟨v, ⟨h1, h2, h3, h4⟩, ⟨h5, h6, h7, h8⟩⟩
    exact ⟨h1.trans h6, h5.trans h2, h3.trans h8, h7.trans h4⟩

theorem C14_intersects_symm (a b : BB K) : a.intersects b = b.intersects a := by
  rw [Bool.eq_iff_iff, BB.intersects_iff, BB.intersects_iff]; tauto

/-- `Merge` is the least box containing both. -/
theorem C14_merge_least (a b c : BB K) :
    (a.merge b).contains a = true ∧ (a.merge b).contains b = true ∧
    (c.contains a = true → c.contains b = true → c.contains (a.merge b) = true) := by
  refine ⟨?_, ?_, ?_⟩
  · rw [BB.contains_iff]; exact ⟨min_le_left _ _, le_max_left _ _, min_le_left _ _, le_max_left _ _⟩
  · rw [BB.contains_iff]; exact ⟨min_le_right _ _, le_max_right _ _, min_le_right _ _, le_max_right _ _⟩
  · rw [BB.contains_iff, BB.contains_iff, BB.contains_iff]
    rintro ⟨h1, h2, h3, h4⟩ ⟨h5, h6, h7, h8⟩
    exact ⟨le_min h1 h5, max_le h2 h6, le_min h3 h7, max_le h4 h8⟩

/-- `Expand` is the least box containing the box and the point. -/
theorem C14_expand_least (a c : BB K) (v : V2 K) :
    (a.expand v).contains a = true ∧ InBox (a.expand v) v ∧
    (c.contains a = true → InBox c v → c.contains (a.expand v) = true) := by
  refine ⟨?_, ⟨min_le_right _ _, le_max_right _ _, min_le_right _ _, le_max_right _ _⟩, ?_⟩
  · rw [BB.contains_iff]; exact ⟨min_le_left _ _, le_max_left _ _, min_le_left _ _, le_max_left _ _⟩
  · rw [BB.contains_iff, BB.contains_iff]
    rintro ⟨h1, h2, h3, h4⟩ ⟨h5, h6, h7, h8⟩
    exact ⟨le_min h1 h5, max_le h2 h6, le_min h3 h7, max_le h4 h8⟩

/-- `Contains` is a partial order. -/
theorem C14_contains_order :
    (∀ a : BB K, a.contains a = true) ∧
    (∀ a b c : BB K, a.contains b = true → b.contains c = true → a.contains c = true) ∧
    (∀ a b : BB K, a.contains b = true → b.contains a = true → a = b) := by
  refine ⟨?_, ?_, ?_⟩
  · intro a; rw [BB.contains_iff]; exact ⟨le_refl _, le_refl _, le_refl _, le_refl _⟩
  · intro a b c; rw [BB.contains_iff, BB.contains_iff, BB.contains_iff]
    rintro ⟨h1, h2, h3, h4⟩ ⟨h5, h6, h7, h8⟩
    exact ⟨h1.trans h5, h6.trans h2, h3.trans h7, h8.trans h4⟩
  · intro a b; rw [BB.contains_iff, BB.contains_iff]
    rintro ⟨h1, h2, h3, h4⟩ ⟨h5, h6, h7, h8⟩
    ext
    · exact le_antisymm h1 h5
    · exact le_antisymm h3 h7
    · exact le_antisymm h6 h2
    · exact le_antisymm h8 h4

end
section
variable {K : Type} [Field K] [LinearOrder K] [IsStrictOrderedRing K]

/-- `MergedArea` is the area of `Merge`, and merging with something already contained costs nothing. -/
theorem C14_mergedArea (a b : BB K) : a.mergedArea b = (a.merge b).area := rfl

/-- Merging never shrinks the area of proper boxes. -/
theorem C14_area_mono (a b : BB K) (ha : Proper a) (hb : Proper b) : a.area ≤ a.mergedArea b ∧ 0 ≤ a.area := by
  have h1 : a.R - a.L ≤ max a.R b.R - min a.L b.L := sub_le_sub (le_max_left _ _) (min_le_left _ _)
  have h2 : a.T - a.B ≤ max a.T b.T - min a.B b.B := sub_le_sub (le_max_left _ _) (min_le_left _ _)
  have h3 : 0 ≤ a.R - a.L := sub_nonneg.2 ha.1
  have h4 : 0 ≤ a.T - a.B := sub_nonneg.2 ha.2
  have _ := hb
  exact ⟨mul_le_mul h1 h2 h4 (h3.trans h1), mul_nonneg h3 h4⟩

/-- `Center` is the midpoint and lies in a proper box. -/
theorem C14_center (b : BB K) (hb : Proper b) :
    InBox b b.center ∧ 2 * b.center.x = b.L + b.R ∧ 2 * b.center.y = b.B + b.T := by
  have hx : b.center.x = (b.L + b.R) / 2 := by simp only [BB.center, V2.lerp, V2.add, V2.scale]; ring
  have hy : b.center.y = (b.B + b.T) / 2 := by simp only [BB.center, V2.lerp, V2.add, V2.scale]; ring
  obtain ⟨h1, h2⟩ := hb
  refine ⟨⟨?_, ?_, ?_, ?_⟩, ?_, ?_⟩ <;> simp only [hx, hy] <;> linarith

/-- `Offset` translates the point set. -/
theorem C14_offset (b : BB K) (v p : V2 K) : InBox (b.offset v) (p.add v) ↔ InBox b p := by
  simp [InBox, BB.offset, V2.add]

/-- `NewBBForExtents` is the set of points within the half sizes. -/
theorem C14_forExtents (c p : V2 K) (hw hh : K) :
    InBox (BB.forExtents c hw hh) p ↔ |p.x - c.x| ≤ hw ∧ |p.y - c.y| ≤ hh := by
  simp only [InBox, BB.forExtents, abs_le]
  constructor
  · rintro ⟨h1, h2, h3, h4⟩; refine ⟨⟨?_, ?_⟩, ?_, ?_⟩ <;> linarith
  · rintro ⟨⟨h1, h2⟩, h3, h4⟩; refine ⟨?_, ?_, ?_, ?_⟩ <;> linarith

/-- `Proximity` is twice the taxicab distance of the centres. -/
theorem C14_proximity (a b : BB K) :
    a.proximity b = 2 * (|a.center.x - b.center.x| + |a.center.y - b.center.y|) := by
  have hx : ∀ b : BB K, b.center.x = (b.L + b.R) / 2 := by
    intro b; simp only [BB.center, V2.lerp, V2.add, V2.scale]; ring
  have hy : ∀ b : BB K, b.center.y = (b.B + b.T) / 2 := by
    intro b; simp only [BB.center, V2.lerp, V2.add, V2.scale]; ring
  unfold BB.proximity
  rw [hx, hx, hy, hy, mul_add]
  have h2 : ∀ x : K, 2 * |x| = |2 * x| := by intro x; rw [abs_mul, abs_of_pos (by norm_num : (0:K) < 2)]
  rw [h2, h2]
  congr 2 <;> ring

example : Proper (⟨0, 0, 2, 3⟩ : BB ℚ) ∧ Proper (⟨1, 1, 4, 4⟩ : BB ℚ) ∧
    (⟨0, 0, 2, 3⟩ : BB ℚ).intersects ⟨1, 1, 4, 4⟩ = true := by
  refine ⟨⟨by norm_num, by norm_num⟩, ⟨by norm_num, by norm_num⟩, ?_⟩
  rw [BB.intersects_iff]; norm_num

/-! ## C13: segment query -/

/-- What one slab computes: the set of fractions for which that coordinate is inside. -/
theorem slab_spec (a d lo hi tmin tmax : K) (hlh : lo ≤ hi) :
    match BB.slab a d lo hi tmin tmax with
    | none => ∀ t, ¬ (lo ≤ a + t * d ∧ a + t * d ≤ hi)
    | some (m, M) => ∀ t, (m ≤ t ∧ t ≤ M) ↔ ((tmin ≤ t ∧ t ≤ tmax) ∧ lo ≤ a + t * d ∧ a + t * d ≤ hi) := by
  unfold BB.slab
  by_cases hd : d = 0
  · simp only [hd, if_true]
    by_cases hc : a < lo ∨ hi < a
    · simp only [hc, if_true]
      rintro t ⟨h1, h2⟩
      rw [mul_zero, add_zero] at h1 h2
      rcases hc with h | h
      · exact absurd h1 (not_le.2 h)
      · exact absurd h2 (not_le.2 h)
    · simp only [hc, if_false]
      rw [not_or, not_lt, not_lt] at hc
      intro t; simp [hc.1, hc.2]
  · simp only [hd, if_false]
    intro t
    rcases lt_or_gt_of_ne hd with hneg | hpos
    · have hle : (hi - a) / d ≤ (lo - a) / d := by
        rw [div_le_div_right_of_neg hneg]; linarith
      rw [min_eq_right hle, max_eq_left hle, max_le_iff, le_min_iff, div_le_iff_of_neg hneg, le_div_iff_of_neg hneg]
      constructor
      · rintro ⟨⟨h1, h2⟩, h3, h4⟩; exact ⟨⟨h1, h3⟩, by linarith, by linarith⟩
      · rintro ⟨⟨h1, h3⟩, h4, h2⟩; exact ⟨⟨h1, by linarith⟩, h3, by linarith⟩
    · have hle : (lo - a) / d ≤ (hi - a) / d := by
        rw [div_le_div_iff_of_pos_right hpos]; linarith
      rw [min_eq_left hle, max_eq_right hle, max_le_iff, le_min_iff, div_le_iff₀ hpos, le_div_iff₀ hpos]
      constructor
      · rintro ⟨⟨h1, h2⟩, h3, h4⟩; exact ⟨⟨h1, h3⟩, by linarith, by linarith⟩
      · rintro ⟨⟨h1, h3⟩, h4, h2⟩; exact ⟨⟨h1, by linarith⟩, h3, by linarith⟩

/-- Bounds kept by a slab. -/
theorem slab_bounds (a d lo hi tmin tmax m M : K) (h : BB.slab a d lo hi tmin tmax = some (m, M)) :
    tmin ≤ m ∧ M ≤ tmax := by
  unfold BB.slab at h
  split at h
  · split at h
    · cases h
    · cases h; exact ⟨le_refl _, le_refl _⟩
  · cases h; exact ⟨le_max_left _ _, min_le_left _ _⟩

/-- **C13.** The result is the first fraction in `[0,1]` at which the segment is in the box, or `infinity`
when there is none. -/
theorem C13_segmentQuery_exact (inf : K) (hinf : 1 < inf) (bb : BB K) (hbb : Proper bb) (a b : V2 K) :
    (BB.segmentQuery inf bb a b = inf ∧ ∀ t, 0 ≤ t → t ≤ 1 → ¬ InBox bb (At a b t)) ∨
    (BB.segmentQuery inf bb a b ≠ inf ∧
      0 ≤ BB.segmentQuery inf bb a b ∧ BB.segmentQuery inf bb a b ≤ 1 ∧
      InBox bb (At a b (BB.segmentQuery inf bb a b)) ∧
      ∀ t, 0 ≤ t → t ≤ 1 → InBox bb (At a b t) → BB.segmentQuery inf bb a b ≤ t) := by
  have hx := slab_spec a.x (b.x - a.x) bb.L bb.R (-inf) inf hbb.1
  unfold BB.segmentQuery
  simp only [V2.sub]
  split
  · rename_i h1
    rw [h1] at hx
    left; refine ⟨rfl, ?_⟩
    intro t _ _ hin
    exact hx t ⟨hin.1, hin.2.1⟩
  · rename_i m M h1
    rw [h1] at hx
    have hy := slab_spec a.y (b.y - a.y) bb.B bb.T m M hbb.2
    split
    · rename_i h2
      rw [h2] at hy
      left; refine ⟨rfl, ?_⟩
      intro t _ _ hin
      exact hy t ⟨hin.2.2.1, hin.2.2.2⟩
    · rename_i m' M' h2
      rw [h2] at hy
      simp only at hx hy
      have hall : ∀ t, (m' ≤ t ∧ t ≤ M') ↔ ((-inf ≤ t ∧ t ≤ inf) ∧ InBox bb (At a b t)) := by
        intro t
        rw [hy, hx]
        simp only [InBox, At]; tauto
      have hb1 := slab_bounds _ _ _ _ _ _ _ _ h1
      have hb2 := slab_bounds _ _ _ _ _ _ _ _ h2
      split
      · rename_i hc
        obtain ⟨c1, c2, c3⟩ := hc
        have hle1 : max m' 0 ≤ 1 := max_le c3 zero_le_one
        right
        refine ⟨by intro h; rw [h] at hle1; linarith, le_max_right _ _, hle1, ?_, ?_⟩
        · exact ((hall _).1 ⟨le_max_left _ _, max_le c1 c2⟩).2
        · intro t h0 h1' hin
          refine max_le ?_ h0
          exact ((hall t).2 ⟨⟨by linarith, by linarith⟩, hin⟩).1
      · rename_i hc
        left; refine ⟨rfl, ?_⟩
        intro t h0 h1' hin
        apply hc
        obtain ⟨k1, k2⟩ := (hall t).2 ⟨⟨by linarith, by linarith⟩, hin⟩
        exact ⟨k1.trans k2, h0.trans k2, k1.trans h1'⟩

/-- **C13.** `IntersectsSegment` holds exactly when some point of the segment is in the box. -/
theorem C13_intersectsSegment (inf : K) (hinf : 1 < inf) (bb : BB K) (hbb : Proper bb) (a b : V2 K) :
    BB.intersectsSegment inf bb a b = true ↔ ∃ t, 0 ≤ t ∧ t ≤ 1 ∧ InBox bb (At a b t) := by
  unfold BB.intersectsSegment
  rcases C13_segmentQuery_exact inf hinf bb hbb a b with ⟨h, h2⟩ | ⟨h, h0, h1, h2, _⟩
  · simp only [h, decide_true, Bool.not_true, Bool.false_eq_true, false_iff]
    rintro ⟨t, h0, h1, hin⟩; exact h2 t h0 h1 hin
  · simp only [h, decide_false, Bool.not_false, true_iff]
    exact ⟨_, h0, h1, h2⟩

example : (1 : ℚ) < 1000 ∧ Proper (⟨0, 0, 2, 3⟩ : BB ℚ) ∧
    BB.segmentQuery 1000 (⟨0, 0, 2, 3⟩ : BB ℚ) ⟨-2, 1⟩ ⟨2, 1⟩ = 1/2 := by
  refine ⟨by norm_num, ⟨by norm_num, by norm_num⟩, ?_⟩
  norm_num [BB.segmentQuery, BB.slab, V2.sub]

/-! ## C15: clamp and wrap -/

/-- `clamp` is the projection to the interval. -/
theorem clamp_eq (f lo hi : K) (h : lo ≤ hi) : clamp f lo hi = max lo (min f hi) := by
  unfold clamp
  split
  · rename_i hf
    rw [max_eq_right]; exact le_min (le_of_lt hf) h
  · rename_i hf
    rw [min_eq_left h, max_eq_left]
    exact (min_le_left _ _).trans (not_lt.1 hf)

theorem clamp_nearest (f lo hi q : K) (h : lo ≤ hi) (hq : lo ≤ q ∧ q ≤ hi) :
    lo ≤ clamp f lo hi ∧ clamp f lo hi ≤ hi ∧ (clamp f lo hi - f) ^ 2 ≤ (q - f) ^ 2 := by
  rw [clamp_eq f lo hi h]
  refine ⟨le_max_left _ _, max_le h (min_le_right _ _), ?_⟩
  rcases le_total f lo with h1 | h1
  · rw [min_eq_left (h1.trans h), max_eq_left h1]
    exact pow_le_pow_left₀ (by linarith) (by linarith [hq.1]) 2
  · rcases le_total f hi with h2 | h2
    · rw [min_eq_left h2, max_eq_right h1]; simp; positivity
    · rw [min_eq_right h2, max_eq_right h]
      have : (hi - f) ^ 2 = (f - hi) ^ 2 := by ring
      rw [this, show (q - f) ^ 2 = (f - q) ^ 2 by ring]
      exact pow_le_pow_left₀ (by linarith) (by linarith [hq.2]) 2

/-- **C15.** `ClampVect` gives the nearest point of the box, uniquely, and fixes points inside. -/
theorem C15_clampVect (b : BB K) (hb : Proper b) (v : V2 K) :
    InBox b (b.clampVect v) ∧ (∀ q, InBox b q → dist2 (b.clampVect v) v ≤ dist2 q v) ∧
    (InBox b v → b.clampVect v = v) := by
  have hx := fun q hq => clamp_nearest v.x b.L b.R q hb.1 hq
  have hy := fun q hq => clamp_nearest v.y b.B b.T q hb.2 hq
  refine ⟨?_, ?_, ?_⟩
  · have h1 := hx b.L ⟨le_refl _, hb.1⟩
    have h2 := hy b.B ⟨le_refl _, hb.2⟩
    exact ⟨h1.1, h1.2.1, h2.1, h2.2.1⟩
  · intro q hq
    have h1 := hx q.x ⟨hq.1, hq.2.1⟩
    have h2 := hy q.y ⟨hq.2.2.1, hq.2.2.2⟩
    exact add_le_add h1.2.2 h2.2.2
  · rintro ⟨h1, h2, h3, h4⟩
    unfold BB.clampVect
    rw [clamp_eq _ _ _ hb.1, clamp_eq _ _ _ hb.2, min_eq_left h2, max_eq_right h1, min_eq_left h4, max_eq_right h3]

variable [FloorRing K]

theorem wrap1_spec (v lo hi : K) (h : lo < hi) :
    lo < wrap1 v lo hi ∧ wrap1 v lo hi ≤ hi ∧ ∃ k : ℤ, wrap1 v lo hi = v + k * (hi - lo) := by
  have hd : 0 < hi - lo := sub_pos.2 h
  unfold wrap1 goMod
  simp only [abs_of_pos hd]
  set d := hi - lo with hdd
  set q := (v - lo) / d with hq
  have hvq : v - lo = q * d := by rw [hq]; field_simp
  have htr : -1 < q - (trunc q : K) ∧ q - (trunc q : K) < 1 := by
    unfold trunc
    split
    · have h1 := Int.floor_le q; have h2 := Int.lt_floor_add_one q
      constructor <;> linarith
    · have h1 := Int.le_ceil q; have h2 := Int.ceil_lt_add_one q
      constructor <;> linarith
  have hm : v - lo - d * (trunc q : K) = (q - trunc q) * d := by rw [hvq]; ring
  rw [hm]
  have hup : (q - (trunc q : K)) * d < d := by nlinarith [htr.2]
  have hlo : -d < (q - (trunc q : K)) * d := by nlinarith [htr.1]
  split
  · rename_i hpos
    refine ⟨by linarith, by linarith, -(trunc q), ?_⟩
    push_cast; rw [← hm]; ring
  · rename_i hneg
    rw [not_lt] at hneg
    refine ⟨by linarith, by linarith, 1 - trunc q, ?_⟩
    push_cast; rw [← hm]; ring

/-- **C15.** `WrapVect` moves the point by whole multiples of width and height into the (half open) box. -/
theorem C15_wrapVect (b : BB K) (hx : b.L < b.R) (hy : b.B < b.T) (v : V2 K) :
    InBox b (b.wrapVect v) ∧ b.L < (b.wrapVect v).x ∧ b.B < (b.wrapVect v).y ∧
    ∃ i j : ℤ, b.wrapVect v = ⟨v.x + i * (b.R - b.L), v.y + j * (b.T - b.B)⟩ := by
  obtain ⟨h1, h2, i, hi⟩ := wrap1_spec v.x b.L b.R hx
  obtain ⟨h3, h4, j, hj⟩ := wrap1_spec v.y b.B b.T hy
  exact ⟨⟨le_of_lt h1, h2, le_of_lt h3, h4⟩, h1, h3, i, j, by unfold BB.wrapVect; rw [hi, hj]⟩

/-- **C15.** Hence wrapping is idempotent and the result is the only such point. -/
theorem C15_wrapVect_unique (b : BB K) (hx : b.L < b.R) (hy : b.B < b.T) (v w : V2 K)
    (hw : InBox b w ∧ b.L < w.x ∧ b.B < w.y) (i j : ℤ)
    (he : w = ⟨v.x + i * (b.R - b.L), v.y + j * (b.T - b.B)⟩) : b.wrapVect v = w := by
  have key : ∀ (lo hi p x y : K) (i j : ℤ), lo < hi → lo < x → x ≤ hi → lo < y → y ≤ hi →
      x = p + i * (hi - lo) → y = p + j * (hi - lo) → x = y := by
    intro lo hi p x y i j hlh h1 h2 h3 h4 hxe hye
    have hd : 0 < hi - lo := sub_pos.2 hlh
    have h5 : x - y = ((i - j : ℤ) : K) * (hi - lo) := by rw [hxe, hye]; push_cast; ring
    have h6 : (i - j : ℤ) < 1 := by
      by_contra hcon
      have : (1 : K) ≤ ((i - j : ℤ) : K) := by exact_mod_cast not_lt.1 hcon
      nlinarith
    have h7 : -1 < (i - j : ℤ) := by
      by_contra hcon
      have : ((i - j : ℤ) : K) ≤ -1 := by exact_mod_cast not_lt.1 hcon
      nlinarith
    have h8 : i - j = 0 := by omega
    rw [h8] at h5; push_cast at h5; linarith
  obtain ⟨h1, h2, h3, i', j', h4⟩ := C15_wrapVect b hx hy v
  ext
  · exact key b.L b.R v.x _ _ i' i hx h2 h1.2.1 hw.2.1 hw.1.2.1 (by rw [h4]) (by rw [he])
  · exact key b.B b.T v.y _ _ j' j hy h3 h1.2.2.2 hw.2.2 hw.1.2.2.2 (by rw [h4]) (by rw [he])

end

example : (⟨-1, -1, 3, 4⟩ : BB ℚ).wrapVect ⟨-6, 9⟩ = ⟨2, 4⟩ := by
  norm_num [BB.wrapVect, wrap1, goMod, trunc, abs_of_pos]

/-! ## C41, C42: transforms -/
section
variable {K : Type} [Field K] [LinearOrder K] [IsStrictOrderedRing K]

/-- **C41.** `Mult` is composition, the identity transform does nothing. -/
theorem C41_mult_apply (s t : Transform K) (p : V2 K) :
    (s.mult t).apply p = s.apply (t.apply p) ∧ (Transform.identity : Transform K).apply p = p := by
  constructor
  · ext <;> simp only [Transform.mult, Transform.apply, Transform.transpose] <;> ring
  · ext <;> simp only [Transform.identity, Transform.apply] <;> ring

/-- Directions are transformed by the linear part. -/
theorem C41_applyVector (t : Transform K) (p q : V2 K) :
    t.applyVector (p.sub q) = (t.apply p).sub (t.apply q) := by
  ext <;> simp only [Transform.applyVector, Transform.apply, V2.sub] <;> ring

theorem Transform.mult_assoc (r s t : Transform K) : (r.mult s).mult t = r.mult (s.mult t) := by
  ext <;> simp only [Transform.mult, Transform.transpose] <;> ring

/-- **C41.** `Inverse` is a two sided inverse whenever the matrix is invertible. -/
theorem C41_inverse (t : Transform K) (h : t.a * t.d - t.c * t.b ≠ 0) (p : V2 K) :
    t.inverse.apply (t.apply p) = p ∧ t.apply (t.inverse.apply p) = p ∧
    t.mult t.inverse = Transform.identity ∧ t.inverse.mult t = Transform.identity := by
  have hi : (t.a * t.d - t.c * t.b) * (1 / (t.a * t.d - t.c * t.b)) = 1 := mul_one_div_cancel h
  set i := 1 / (t.a * t.d - t.c * t.b) with hid
  have hinv : t.inverse = ⟨t.d * i, -t.b * i, -t.c * i, t.a * i, (t.c * t.ty - t.tx * t.d) * i,
      (t.tx * t.b - t.a * t.ty) * i⟩ := rfl
  rw [hinv]
  refine ⟨?_, ?_, ?_, ?_⟩ <;> ext <;>
    simp only [Transform.apply, Transform.transpose, Transform.mult, Transform.identity]
  · linear_combination p.x * hi
  · linear_combination p.y * hi
  · linear_combination (p.x - t.tx) * hi
  · linear_combination (p.y - t.ty) * hi
  · linear_combination hi
  · ring
  · ring
  · linear_combination hi
  · linear_combination (-t.tx) * hi
  · linear_combination (-t.ty) * hi
  · linear_combination hi
  · ring
  · ring
  · linear_combination hi
  · ring
  · ring

/-- A non invertible matrix has no inverse at all, so the hypothesis of `C41_inverse` is necessary. -/
theorem C41_inverse_needs_det (t s : Transform K) (h : s.mult t = Transform.identity) :
    t.a * t.d - t.c * t.b ≠ 0 := by
  intro hdet
  simp only [Transform.mult, Transform.transpose, Transform.identity, Transform.mk.injEq] at h
  obtain ⟨h1, h2, h3, h4, _, _⟩ := h
  have : (s.a * s.d - s.c * s.b) * (t.a * t.d - t.c * t.b) = 1 := by
    calc _ = (s.a * t.a + s.c * t.b) * (s.b * t.c + s.d * t.d) - (s.a * t.c + s.c * t.d) * (s.b * t.a + s.d * t.b) := by ring
      _ = 1 := by rw [h1, h2, h3, h4]; ring
  rw [hdet] at this
  simp at this

/-- **C41.** For a rigid motion `RigidInverse` is the two sided inverse, and distances are preserved. -/
theorem C41_rigid (v rot : V2 K) (h : rot.x ^ 2 + rot.y ^ 2 = 1) (p q : V2 K) :
    let t := Transform.rigid v rot
    t.rigidInverse.apply (t.apply p) = p ∧ t.apply (t.rigidInverse.apply p) = p ∧
    dist2 (t.apply p) (t.apply q) = dist2 p q ∧ t.rigidInverse = t.inverse := by
  have h1 : rot.x * rot.x - -rot.y * rot.y = 1 := by rw [← h]; ring
  refine ⟨?_, ?_, ?_, ?_⟩
  · ext
    · simp only [Transform.rigid, Transform.rigidInverse, Transform.apply, Transform.transpose]
      linear_combination p.x * h
    · simp only [Transform.rigid, Transform.rigidInverse, Transform.apply, Transform.transpose]
      linear_combination p.y * h
  · ext
    · simp only [Transform.rigid, Transform.rigidInverse, Transform.apply, Transform.transpose]
      linear_combination (p.x - v.x) * h
    · simp only [Transform.rigid, Transform.rigidInverse, Transform.apply, Transform.transpose]
      linear_combination (p.y - v.y) * h
  · simp only [dist2, Transform.rigid, Transform.apply, Transform.transpose]
    linear_combination ((p.x - q.x) ^ 2 + (p.y - q.y) ^ 2) * h
  · simp only [Transform.rigid, Transform.rigidInverse, Transform.inverse, Transform.transpose, h1]
    ext <;> simp

/-- **C41.** `Wrap` conjugates: doing `outer.Wrap(inner)` is doing `outer`, then `inner`, then undoing `outer`. -/
theorem C41_wrap (t inner : Transform K) (h : t.a * t.d - t.c * t.b ≠ 0) (p : V2 K) :
    t.apply ((t.wrap inner).apply p) = inner.apply (t.apply p) := by
  unfold Transform.wrap
  rw [(C41_mult_apply _ _ p).1, (C41_inverse t h _).2.1, (C41_mult_apply _ _ p).1]

/-- **C41.** `Ortho` maps the box onto the square `[-1,1]²`. -/
theorem C41_ortho (b : BB K) (hx : b.L < b.R) (hy : b.B < b.T) (p : V2 K) :
    InBox ⟨-1, -1, 1, 1⟩ ((Transform.ortho b).apply p) ↔ InBox b p := by
  have h1 : 0 < b.R - b.L := sub_pos.2 hx
  have h2 : 0 < b.T - b.B := sub_pos.2 hy
  have ex : ((Transform.ortho b).apply p).x = (2 * p.x - (b.R + b.L)) / (b.R - b.L) := by
    simp only [Transform.ortho, Transform.apply, Transform.transpose]; field_simp; ring
  have ey : ((Transform.ortho b).apply p).y = (2 * p.y - (b.T + b.B)) / (b.T - b.B) := by
    simp only [Transform.ortho, Transform.apply, Transform.transpose]; field_simp; ring
  simp only [InBox, ex, ey]
  rw [le_div_iff₀ h1, div_le_iff₀ h1, le_div_iff₀ h2, div_le_iff₀ h2]
  constructor <;> rintro ⟨k1, k2, k3, k4⟩ <;> refine ⟨?_, ?_, ?_, ?_⟩ <;> linarith

/-- **C41.** `BoneScale` maps the unit x axis to the bone. -/
theorem C41_boneScale (v0 v1 : V2 K) :
    (Transform.boneScale v0 v1).apply ⟨0, 0⟩ = v0 ∧ (Transform.boneScale v0 v1).apply ⟨1, 0⟩ = v1 := by
  constructor <;> ext <;> simp only [Transform.boneScale, Transform.apply, Transform.transpose, V2.sub] <;> ring

/-- **C41.** `AxialScale` along a unit axis: the pivot is fixed, the component along the axis is scaled, the
component across is kept. -/
theorem C41_axialScale (axis pivot : V2 K) (s : K) (h : axis.x ^ 2 + axis.y ^ 2 = 1) (p : V2 K) :
    let q := (Transform.axialScale axis pivot s).apply p
    (q.sub pivot).dot axis = s * ((p.sub pivot).dot axis) ∧ (q.sub pivot).cross axis = (p.sub pivot).cross axis := by
  constructor
  · simp only [Transform.axialScale, Transform.apply, Transform.transpose, V2.dot, V2.sub]
    linear_combination (s * axis.x * p.x + s * axis.y * p.y + (1 - s) * (axis.x * pivot.x + axis.y * pivot.y)) * h
  · simp only [Transform.axialScale, Transform.apply, Transform.transpose, V2.dot, V2.sub, V2.cross]
    linear_combination (axis.y * p.x - axis.x * p.y) * h

example : (⟨2, 1, 1, 1, 3, 4⟩ : Transform ℚ).inverse.apply ⟨5, 6⟩ = ⟨0, 2⟩ := by
  norm_num [Transform.inverse, Transform.apply, Transform.transpose]
example : (3/5 : ℚ) ^ 2 + (4/5) ^ 2 = 1 := by norm_num

theorem abs_affine_le (u v hw hh x y : K) (hx : |x| ≤ hw) (hy : |y| ≤ hh) :
    |u * x + v * y| ≤ max |u * hw + v * hh| |u * hw - v * hh| := by
  have hw0 : 0 ≤ hw := (abs_nonneg _).trans hx
  have hh0 : 0 ≤ hh := (abs_nonneg _).trans hy
  have h1 : |u * x + v * y| ≤ |u| * hw + |v| * hh := by
    refine (abs_add_le _ _).trans ?_
    rw [abs_mul, abs_mul]
    exact add_le_add (mul_le_mul_of_nonneg_left hx (abs_nonneg _)) (mul_le_mul_of_nonneg_left hy (abs_nonneg _))
  refine h1.trans ?_
  rcases le_total 0 u with hu | hu <;> rcases le_total 0 v with hv | hv
  · refine le_max_of_le_left (le_abs.2 (Or.inl ?_)); rw [abs_of_nonneg hu, abs_of_nonneg hv]
  · refine le_max_of_le_right (le_abs.2 (Or.inl ?_)); rw [abs_of_nonneg hu, abs_of_nonpos hv]; linarith
  · refine le_max_of_le_right (le_abs.2 (Or.inr ?_)); rw [abs_of_nonpos hu, abs_of_nonneg hv]; linarith
  · refine le_max_of_le_left (le_abs.2 (Or.inr ?_)); rw [abs_of_nonpos hu, abs_of_nonpos hv]; linarith

/-- **C42.** The transformed box contains the image of every point of the box. -/
theorem C42_bb_contains_image (t : Transform K) (b : BB K) (p : V2 K) (hp : InBox b p) :
    InBox (t.bb b) (t.apply p) := by
  have hcx : b.center.x = (b.L + b.R) / 2 := by simp only [BB.center, V2.lerp, V2.add, V2.scale]; ring
  have hcy : b.center.y = (b.B + b.T) / 2 := by simp only [BB.center, V2.lerp, V2.add, V2.scale]; ring
  obtain ⟨h1, h2, h3, h4⟩ := hp
  have hx : |p.x - b.center.x| ≤ (b.R - b.L) * (1/2) := by rw [hcx, abs_le]; constructor <;> linarith
  have hy : |p.y - b.center.y| ≤ (b.T - b.B) * (1/2) := by rw [hcy, abs_le]; constructor <;> linarith
  unfold Transform.bb
  rw [C14_forExtents]
  constructor
  · have := abs_affine_le t.a t.c _ _ _ _ hx hy
    refine le_trans (le_of_eq ?_) this
    congr 1; simp only [Transform.apply]; ring
  · have := abs_affine_le t.b t.d _ _ _ _ hx hy
    refine le_trans (le_of_eq ?_) this
    congr 1; simp only [Transform.apply]; ring

/-- **C42.** And it is the smallest such box. -/
theorem C42_bb_least (t : Transform K) (b c : BB K) (hb : Proper b)
    (hc : ∀ p, InBox b p → InBox c (t.apply p)) : c.contains (t.bb b) = true := by
  have hcx : b.center.x = (b.L + b.R) / 2 := by simp only [BB.center, V2.lerp, V2.add, V2.scale]; ring
  have hcy : b.center.y = (b.B + b.T) / 2 := by simp only [BB.center, V2.lerp, V2.add, V2.scale]; ring
  obtain ⟨h1, h2⟩ := hb
  have k1 := hc ⟨b.L, b.B⟩ ⟨le_refl _, h1, le_refl _, h2⟩
  have k2 := hc ⟨b.L, b.T⟩ ⟨le_refl _, h1, h2, le_refl _⟩
  have k3 := hc ⟨b.R, b.B⟩ ⟨h1, le_refl _, le_refl _, h2⟩
  have k4 := hc ⟨b.R, b.T⟩ ⟨h1, le_refl _, h2, le_refl _⟩
  simp only [InBox, Transform.apply] at k1 k2 k3 k4
  rw [BB.contains_iff]
  simp only [Incl, Transform.bb, BB.forExtents, Transform.apply, hcx, hcy]
  refine ⟨?_, ?_, ?_, ?_⟩
  · rw [le_sub_comm]
    refine max_le (abs_le.2 ⟨?_, ?_⟩) (abs_le.2 ⟨?_, ?_⟩) <;> linarith
  · rw [add_comm, ← le_sub_iff_add_le]
    refine max_le (abs_le.2 ⟨?_, ?_⟩) (abs_le.2 ⟨?_, ?_⟩) <;> linarith
  · rw [le_sub_comm]
    refine max_le (abs_le.2 ⟨?_, ?_⟩) (abs_le.2 ⟨?_, ?_⟩) <;> linarith
  · rw [add_comm, ← le_sub_iff_add_le]
    refine max_le (abs_le.2 ⟨?_, ?_⟩) (abs_le.2 ⟨?_, ?_⟩) <;> linarith

example : InBox (⟨0, 0, 2, 3⟩ : BB ℚ) ⟨1, 2⟩ ∧ Proper (⟨0, 0, 2, 3⟩ : BB ℚ) := by norm_num [InBox, Proper]

/-! ## C63: closest point on a segment -/

theorem clamp01_eq (f : K) : clamp01 f = max 0 (min f 1) := rfl

theorem clamp01_mem (f : K) : 0 ≤ clamp01 f ∧ clamp01 f ≤ 1 :=
  ⟨le_max_left _ _, max_le zero_le_one (min_le_right _ _)⟩

/-- The clamped minimiser of a quadratic minimises it over `[0,1]`. -/
theorem quad_min (A B t : K) (hA : 0 < A) (h0 : 0 ≤ t) (h1 : t ≤ 1) :
    A * (clamp01 (B / A)) ^ 2 - 2 * B * clamp01 (B / A) ≤ A * t ^ 2 - 2 * B * t := by
  set s := clamp01 (B / A) with hs
  have key : A * t ^ 2 - 2 * B * t - (A * s ^ 2 - 2 * B * s) = A * (t - s) ^ 2 + 2 * (t - s) * (A * s - B) := by ring
  have hB : B = A * (B / A) := by field_simp
  have h3 : 0 ≤ (t - s) * (A * s - B) := by
    rcases le_total (B / A) 0 with h | h
    · have : s = 0 := by rw [hs, clamp01]; rw [min_eq_left (h.trans zero_le_one), max_eq_left h]
      rw [this]
      have hB' : B ≤ 0 := by rw [hB]; exact mul_nonpos_of_nonneg_of_nonpos (le_of_lt hA) h
      nlinarith
    · rcases le_total (B / A) 1 with h' | h'
      · have : s = B / A := by rw [hs, clamp01]; rw [min_eq_left h', max_eq_right h]
        have : A * s - B = 0 := by rw [this]; field_simp; ring
        rw [this, mul_zero]
      · have : s = 1 := by rw [hs, clamp01]; rw [min_eq_right h', max_eq_right zero_le_one]
        rw [this]
        have hB' : A ≤ B := by rw [hB]; nlinarith
        nlinarith
  nlinarith [mul_nonneg (le_of_lt hA) (sq_nonneg (t - s))]

/-- **C63.** The result is a point of the segment, at least as near as every point of the segment. -/
theorem C63_closest_on_segment (v a b : V2 K) (hab : a ≠ b) :
    (∃ t, 0 ≤ t ∧ t ≤ 1 ∧ closestPointOnSegment v a b = At b a t) ∧
    ∀ t, 0 ≤ t → t ≤ 1 → dist2 (closestPointOnSegment v a b) v ≤ dist2 (At b a t) v := by
  set d := a.sub b with hd
  have hA : 0 < d.lengthSq := by
    have : d.x ≠ 0 ∨ d.y ≠ 0 := by
      by_contra hcon
      rw [not_or, not_not, not_not] at hcon
      apply hab
      simp only [hd, V2.sub] at hcon
      ext
      · exact sub_eq_zero.1 hcon.1
      · exact sub_eq_zero.1 hcon.2
    unfold V2.lengthSq V2.dot
    rcases this with h | h
    · have := mul_self_pos.2 h; nlinarith [mul_self_nonneg d.y]
    · have := mul_self_pos.2 h; nlinarith [mul_self_nonneg d.x]
  set B := d.dot (v.sub b) with hB
  have hc : closestPointOnSegment v a b = At b a (clamp01 (B / d.lengthSq)) := by
    simp only [closestPointOnSegment, At, ← hd, ← hB, V2.add, V2.scale]
    simp only [hd, V2.sub]
    ext <;> simp only <;> ring
  refine ⟨⟨_, (clamp01_mem _).1, (clamp01_mem _).2, hc⟩, ?_⟩
  intro t h0 h1
  have hq := quad_min d.lengthSq B t hA h0 h1
  have hexp : ∀ s, dist2 (At b a s) v = d.lengthSq * s ^ 2 - 2 * B * s + dist2 b v := by
    intro s
    simp only [dist2, At, hB, hd, V2.lengthSq, V2.dot, V2.sub]; ring
  rw [hc, hexp, hexp]
  linarith

/-- For a segment of length zero the model's division by zero gives the end point; in Go it is NaN, which is
outside the model. -/
example : closestPointOnSegment (⟨3, 4⟩ : V2 ℚ) ⟨2, 0⟩ ⟨0, 0⟩ = ⟨2, 0⟩ := by
  norm_num [closestPointOnSegment, V2.sub, V2.dot, V2.add, V2.scale, V2.lengthSq, clamp01]

end
end Cm
