import Verif.Props.ShapePoint
import Mathlib.Algebra.BigOperators.Group.List.Basic
import Mathlib.Tactic.FieldSimp
/-! # C61, C62: moments, areas, centroids, end points -/
set_option linter.unusedSectionVars false
set_option linter.unusedSimpArgs false
set_option linter.unusedVariables false

namespace Cm
open Spec
variable {K : Type} [Field K] [LinearOrder K] [IsStrictOrderedRing K]

/-! ## Sums over the edges of a closed polygon -/

theorem edges_sum_snd (l : List (V2 K)) (g : V2 K → K) :
    ((edgesOf l).map fun e => g e.2).sum = ((edgesOf l).map fun e => g e.1).sum := by
  have h1 : (edgesOf l).map (fun e => g e.2) = (l.rotate 1).map g := by
    unfold edgesOf
    have : (fun e : V2 K × V2 K => g e.2) = g ∘ Prod.snd := rfl
    rw [this, ← List.map_map, List.map_snd_zip (by simp)]
  have h2 : (edgesOf l).map (fun e => g e.1) = l.map g := by
    unfold edgesOf
    have : (fun e : V2 K × V2 K => g e.1) = g ∘ Prod.fst := rfl
    rw [this, ← List.map_map, List.map_fst_zip (by simp)]
  rw [h1, h2]
  exact ((List.rotate_perm l 1).map g).sum_eq

/-- Edge terms that differ by a difference of a function of the ends have the same sum. -/
theorem edges_sum_tele (l : List (V2 K)) (f f' : V2 K × V2 K → K) (g : V2 K → K) (h : ∀ e, f e = f' e + (g e.1 - g e.2)) :
    ((edgesOf l).map f).sum = ((edgesOf l).map f').sum := by
  have : (edgesOf l).map f = (edgesOf l).map fun e => f' e + (g e.1 - g e.2) := List.map_congr_left fun e _ => h e
  have h2 : (edgesOf l).map (fun e => g e.1 - g e.2) = (edgesOf l).map fun e => g e.1 + (-1) * g e.2 :=
    List.map_congr_left fun e _ => by ring
  rw [this, List.sum_map_add, h2, List.sum_map_add, List.sum_map_mul_left, edges_sum_snd]
  ring

theorem fold_pair (l : List (V2 K × V2 K)) (f g : V2 K × V2 K → K) : ∀ a b : K,
    l.foldl (fun (s : K × K) e => (s.1 + f e, s.2 + g e)) (a, b) = (a + (l.map f).sum, b + (l.map g).sum) := by
  induction l with
  | nil => intro a b; simp
  | cons e l ih =>
    intro a b
    rw [List.foldl_cons, ih, List.map_cons, List.sum_cons, List.map_cons, List.sum_cons, add_assoc, add_assoc]

theorem fold_vec (l : List (V2 K × V2 K)) (f : V2 K × V2 K → K) : ∀ (a : K) (v : V2 K),
    l.foldl (fun (s : K × V2 K) e => (s.1 + f e, s.2.add ((e.1.add e.2).scale (f e)))) (a, v) =
      (a + (l.map f).sum, ⟨v.x + (l.map fun e => (e.1.x + e.2.x) * f e).sum, v.y + (l.map fun e => (e.1.y + e.2.y) * f e).sum⟩) := by
  induction l with
  | nil => intro a v; simp
  | cons e l ih =>
    intro a v
    rw [List.foldl_cons, ih]
    simp only [V2.add, V2.scale, List.map_cons, List.sum_cons, add_assoc]

theorem edgesOf_map (l : List (V2 K)) (f : V2 K → V2 K) : edgesOf (l.map f) = (edgesOf l).map fun e => (f e.1, f e.2) := by
  unfold edgesOf
  rw [← List.map_rotate, List.zip_map]
  rfl

/-- Twice the signed area, counter-clockwise positive. -/
def Spec.area2 (l : List (V2 K)) : K := ((edgesOf l).map fun e => e.1.cross e.2).sum

theorem area2_translate (l : List (V2 K)) (o : V2 K) : area2 (l.map (V2.add · o)) = area2 l := by
  unfold area2
  rw [edgesOf_map, List.map_map]
  apply edges_sum_tele l _ _ (fun v => v.cross o)
  intro e
  simp only [Function.comp, V2.cross, V2.add]; ring

theorem centroid_eq (l : List (V2 K)) : centroidForPoly l =
    ⟨((edgesOf l).map fun e => (e.1.x + e.2.x) * e.1.cross e.2).sum * (1 / (3 * area2 l)),
     ((edgesOf l).map fun e => (e.1.y + e.2.y) * e.1.cross e.2).sum * (1 / (3 * area2 l))⟩ := by
  unfold centroidForPoly
  dsimp only
  rw [fold_vec (f := fun e => e.1.cross e.2)]
  simp only [V2.zero, zero_add, V2.scale]
  rfl

/-! ## C61 -/

/-- **C61.** `AreaForPoly` is the signed area of the polygon plus the rounding; it does not change under translation, and
neither does the winding convention: counter-clockwise is positive (the doc comment says clockwise). -/
theorem C61_area (M : Mth K) (pi : K) (l : List (V2 K)) (r : K) (o : V2 K) :
    areaForPoly M pi (l.map (V2.add · o)) r = areaForPoly M pi l r ∧ areaForPoly M pi l 0 = area2 l / 2 := by
  constructor
  · unfold areaForPoly
    simp only [fold_pair]
    have h1 := area2_translate l o
    unfold area2 at h1
    have h2 : ((edgesOf (l.map (V2.add · o))).map fun e => (e.1.sub e.2).mag M) = (edgesOf l).map fun e => (e.1.sub e.2).mag M := by
      rw [edgesOf_map, List.map_map]
      apply List.map_congr_left
      intro e _
      simp only [Function.comp]
      congr 1
      simp only [V2.sub, V2.add]; ext <;> simp only <;> ring
    rw [h1, h2]
  · unfold areaForPoly
    simp only [fold_pair, zero_mul, zero_add]
    rfl

/-- **C61.** The centroid moves with the polygon. -/
theorem C61_centroid (l : List (V2 K)) (o : V2 K) (h : area2 l ≠ 0) :
    centroidForPoly (l.map (V2.add · o)) = (centroidForPoly l).add o := by
  have h1 := area2_translate l o
  have hX : ((edgesOf (l.map (V2.add · o))).map fun e => (e.1.x + e.2.x) * e.1.cross e.2).sum =
      ((edgesOf l).map fun e => (e.1.x + e.2.x) * e.1.cross e.2).sum + 3 * o.x * area2 l := by
    rw [edgesOf_map, List.map_map]
    unfold area2
    rw [← List.sum_map_mul_left, ← List.sum_map_add]
    apply edges_sum_tele l _ _ (fun v => o.y * v.x * v.x - o.x * v.x * v.y + 2 * o.x * v.cross o)
    intro e
    simp only [Function.comp, V2.cross, V2.add]; ring
  have hY : ((edgesOf (l.map (V2.add · o))).map fun e => (e.1.y + e.2.y) * e.1.cross e.2).sum =
      ((edgesOf l).map fun e => (e.1.y + e.2.y) * e.1.cross e.2).sum + 3 * o.y * area2 l := by
    rw [edgesOf_map, List.map_map]
    unfold area2
    rw [← List.sum_map_mul_left, ← List.sum_map_add]
    apply edges_sum_tele l _ _ (fun v => o.y * v.x * v.y - o.x * v.y * v.y + 2 * o.y * v.cross o)
    intro e
    simp only [Function.comp, V2.cross, V2.add]; ring
  rw [centroid_eq, centroid_eq, hX, hY, h1]
  simp only [V2.add]
  ext <;> simp only <;> field_simp

/-- Sum of the second moment of the polygon moved by `o`, up to the factor. -/
def Spec.second (l : List (V2 K)) (o : V2 K) : K :=
  ((edgesOf l).map fun e => (e.2.add o).cross (e.1.add o) *
    ((e.1.add o).dot (e.1.add o) + (e.1.add o).dot (e.2.add o) + (e.2.add o).dot (e.2.add o))).sum

theorem momentForPoly_eq (M : Mth K) (m : K) (l : List (V2 K)) (o : V2 K) (h : l.length ≠ 2) :
    momentForPoly M m l o = m * second l o / (6 * -area2 l) := by
  have h2 : ((edgesOf l).map fun e => (e.2.add o).cross (e.1.add o)).sum = -area2 l := by
    unfold area2
    have : -((edgesOf l).map fun e => e.1.cross e.2).sum = ((edgesOf l).map fun e => -(e.1.cross e.2)).sum := by
      rw [← neg_one_mul, ← List.sum_map_mul_left]
      congr 1
      exact List.map_congr_left fun e _ => by ring
    rw [this]
    apply edges_sum_tele l _ _ (fun v => o.cross v)
    intro e
    simp only [V2.cross, V2.add]; ring
  unfold momentForPoly
  split
  · simp at h
  · simp only [fold_pair (f := fun e => (e.2.add o).cross (e.1.add o) *
      ((e.1.add o).dot (e.1.add o) + (e.1.add o).dot (e.2.add o) + (e.2.add o).dot (e.2.add o))) (g := fun e => (e.2.add o).cross (e.1.add o)),
      zero_add, h2]
    rfl

/-- **C61 (parallel axes).** For a polygon of any number of vertexes but two, with non-zero area: moving it by `o` changes the moment
by `m (2 o·c + |o|²)`, `c` being the centroid computed by `CentroidForPoly`. -/
theorem C61_parallel_partial (M : Mth K) (m : K) (l : List (V2 K)) (o : V2 K) (hl : l.length ≠ 2) (h : area2 l ≠ 0) :
    momentForPoly M m l o = momentForPoly M m l V2.zero + m * (2 * o.dot (centroidForPoly l) + o.dot o) := by
  rw [momentForPoly_eq M m l o hl, momentForPoly_eq M m l V2.zero hl]
  set X := ((edgesOf l).map fun e => (e.1.x + e.2.x) * e.1.cross e.2).sum with hX
  set Y := ((edgesOf l).map fun e => (e.1.y + e.2.y) * e.1.cross e.2).sum with hY
  have hs : second l o = second l V2.zero + (-(4 * o.x) * X + (-(4 * o.y) * Y + -(6 * o.dot o) * area2 l)) := by
    unfold second
    rw [hX, hY]
    unfold area2
    rw [← List.sum_map_mul_left, ← List.sum_map_mul_left, ← List.sum_map_mul_left, ← List.sum_map_add, ← List.sum_map_add, ← List.sum_map_add]
    apply edges_sum_tele l _ _ (fun v => o.cross v * v.dot v + 3 * (o.cross v * o.dot v) + 3 * o.dot o * o.cross v)
    intro e
    simp only [V2.cross, V2.add, V2.dot, V2.zero]; ring
  have hc : centroidForPoly l = ⟨X * (1 / (3 * area2 l)), Y * (1 / (3 * area2 l))⟩ := centroid_eq l
  rw [hs, hc]
  simp only [V2.dot]
  field_simp
  ring

/-- **C61.** Adding the offset is the same as moving the vertexes. -/
theorem C61_offset_partial (M : Mth K) (m : K) (l : List (V2 K)) (o : V2 K) (hl : l.length ≠ 2) :
    momentForPoly M m (l.map (V2.add · o)) V2.zero = momentForPoly M m l o := by
  rw [momentForPoly_eq M m _ _ (by simpa using hl), momentForPoly_eq M m l o hl, area2_translate]
  congr 2
  unfold second
  rw [edgesOf_map, List.map_map]
  congr 1
  apply List.map_congr_left
  intro e _
  simp only [Function.comp, V2.add, V2.zero, V2.dot, V2.cross]; ring

/-- **C61.** The moment a polygon shape reports to its body, about its centroid, does not depend on where the polygon is; the moment
about the origin is that plus `m |c|²`. -/
theorem C61_massInfo_partial (M : Mth K) (pi m : K) (l : List (V2 K)) (r : K) (o : V2 K) (hl : l.length ≠ 2) (h : area2 l ≠ 0) :
    (polyMassInfo M pi m (l.map (V2.add · o)) r).i = (polyMassInfo M pi m l r).i ∧
    momentForPoly M 1 l V2.zero = (polyMassInfo M pi m l r).i + (polyMassInfo M pi m l r).cog.lengthSq := by
  simp only [polyMassInfo]
  constructor
  · rw [C61_centroid l o h]
    have h' : area2 (l.map (V2.add · o)) ≠ 0 := by rw [area2_translate]; exact h
    rw [C61_parallel_partial M 1 (l.map (V2.add · o)) _ (by simpa using hl) h', C61_offset_partial M 1 l o hl, C61_parallel_partial M 1 l o hl h,
      C61_parallel_partial M 1 l (centroidForPoly l).neg hl h, C61_centroid l o h]
    simp only [V2.dot, V2.neg, V2.add]; ring
  · rw [C61_parallel_partial M 1 l (centroidForPoly l).neg hl h]
    simp only [V2.dot, V2.neg, V2.lengthSq]; ring

/-- **C61.** On boxes the polygon formulas give the box formulas. -/
theorem C61_box (M : Mth K) (pi m : K) (bb : BB K) (hw : bb.L < bb.R) (hh : bb.B < bb.T) :
    areaForPoly M pi (boxVerts bb) 0 = (bb.R - bb.L) * (bb.T - bb.B) ∧
    momentForPoly M m (boxVerts bb) V2.zero = momentForBox2 m bb ∧
    centroidForPoly (boxVerts bb) = ⟨(bb.L + bb.R) / 2, (bb.B + bb.T) / 2⟩ ∧
    (∀ w h : K, 0 < w → 0 < h → momentForPoly M m (boxVerts ⟨-w / 2, -h / 2, w / 2, h / 2⟩) V2.zero = momentForBox m w h) := by
  have hA : ∀ b : BB K, area2 (boxVerts b) = 2 * ((b.R - b.L) * (b.T - b.B)) := by
    intro b; simp only [area2, edgesOf, boxVerts]; simp [V2.cross]; ring
  have hM : ∀ b : BB K, b.L < b.R → b.B < b.T → momentForPoly M m (boxVerts b) V2.zero = momentForBox2 m b := by
    intro b h1 h2
    rw [momentForPoly_eq M m _ _ (by simp [boxVerts]), hA]
    have e1 : b.R - b.L ≠ 0 := ne_of_gt (sub_pos.2 h1)
    have e2 : b.T - b.B ≠ 0 := ne_of_gt (sub_pos.2 h2)
    have hs : second (boxVerts b) V2.zero = -4 * ((b.R - b.L) * (b.T - b.B)) * (b.L ^ 2 + b.L * b.R + b.R ^ 2 + (b.B ^ 2 + b.B * b.T + b.T ^ 2)) := by
      simp only [second, edgesOf, boxVerts]; simp [V2.cross, V2.dot, V2.add, V2.zero]; ring
    rw [hs]
    simp only [momentForBox2, momentForBox, V2.scale, V2.lengthSq, V2.dot]
    field_simp
    ring
  refine ⟨?_, hM bb hw hh, ?_, ?_⟩
  · rw [(C61_area M pi (boxVerts bb) 0 V2.zero).2, hA]; ring
  · have e1 : bb.R - bb.L ≠ 0 := ne_of_gt (sub_pos.2 hw)
    have e2 : bb.T - bb.B ≠ 0 := ne_of_gt (sub_pos.2 hh)
    have hX : ((edgesOf (boxVerts bb)).map fun e => (e.1.x + e.2.x) * e.1.cross e.2).sum = 3 * ((bb.R - bb.L) * (bb.T - bb.B)) * (bb.L + bb.R) := by
      simp only [edgesOf, boxVerts]; simp [V2.cross]; ring
    have hY : ((edgesOf (boxVerts bb)).map fun e => (e.1.y + e.2.y) * e.1.cross e.2).sum = 3 * ((bb.R - bb.L) * (bb.T - bb.B)) * (bb.B + bb.T) := by
      simp only [edgesOf, boxVerts]; simp [V2.cross]; ring
    rw [centroid_eq, hX, hY, hA]
    ext <;> simp only <;> (field_simp)
  · intro w h hw hh
    rw [hM _ (by simp only; linarith) (by simp only; linarith)]
    simp only [momentForBox2, momentForBox, V2.scale, V2.lengthSq, V2.dot]
    ring

/-- **C61 (violated).** `MomentForCircle2` is four times `MomentForCircle` for the same solid circle, so the two differ whenever mass and
radius are not zero. -/
theorem C61_circle2 (m r : K) : momentForCircle2 m r = 4 * momentForCircle m 0 r V2.zero ∧
    (m ≠ 0 → r ≠ 0 → momentForCircle2 m r ≠ momentForCircle m 0 r V2.zero) := by
  have h : momentForCircle2 m r = 4 * momentForCircle m 0 r V2.zero := by
    simp only [momentForCircle2, momentForCircle, V2.zero, V2.lengthSq, V2.dot]; ring
  refine ⟨h, fun hm hr e => ?_⟩
  rw [h] at e
  have : momentForCircle m 0 r V2.zero = m * (r * r) / 2 := by simp only [momentForCircle, V2.zero, V2.lengthSq, V2.dot]; ring
  rw [this] at e
  have h3 : m * (r * r) = 0 := by linarith
  rcases mul_eq_zero.1 h3 with h | h
  · exact hm h
  · exact hr (mul_self_eq_zero.1 h)

/-- **C61 (violated).** With exactly two vertexes the offset is ignored. -/
theorem C61_two_verts (M : Mth K) (m : K) (a b o o' : V2 K) : momentForPoly M m [a, b] o = momentForPoly M m [a, b] o' := rfl

/-- A triangle: area, moment, and moved by (1,2). -/
example : area2 ([⟨0, 0⟩, ⟨3, 0⟩, ⟨0, 3⟩] : List (V2 ℚ)) = 9 ∧ centroidForPoly ([⟨0, 0⟩, ⟨3, 0⟩, ⟨0, 3⟩] : List (V2 ℚ)) = ⟨1, 1⟩ ∧
    momentForPoly toyMth 1 ([⟨0, 0⟩, ⟨3, 0⟩, ⟨0, 3⟩] : List (V2 ℚ)) V2.zero = 3 ∧
    momentForPoly toyMth 1 ([⟨0, 0⟩, ⟨3, 0⟩, ⟨0, 3⟩] : List (V2 ℚ)) ⟨1, 2⟩ = 14 ∧
    momentForPoly toyMth 1 ([⟨0, 0⟩, ⟨2, 0⟩] : List (V2 ℚ)) ⟨5, 5⟩ ≠ momentForPoly toyMth 1 ([⟨5, 5⟩, ⟨7, 5⟩] : List (V2 ℚ)) V2.zero := by
  decide +kernel

/-! ## C62 -/

/-- **C62 (violated).** `SetEndpoints` stores the ends but the opposite of the constructor's normal, for all ends. -/
theorem C62_setEndpoints {M : Mth K} (hM : M.Lawful) (s : Segment K) (a b : V2 K) (hab : a ≠ b) :
    (s.setEndpoints M a b).a = a ∧ (s.setEndpoints M a b).b = b ∧
    (s.setEndpoints M a b).n = (Segment.new M a b s.radius).n.neg ∧
    (s.setEndpoints M a b).n ≠ (Segment.new M a b s.radius).n := by
  have hne : b.sub a ≠ V2.zero := by
    intro e
    simp only [V2.sub, V2.zero, V2.mk.injEq] at e
    apply hab; ext
    · linarith [e.1]
    · linarith [e.2]
  have hu := unit_ne_zero hM _ hne
  refine ⟨rfl, rfl, ?_, ?_⟩
  · simp [Segment.setEndpoints, Segment.new, V2.perp, V2.rperp, V2.neg]
  · intro e
    simp only [Segment.setEndpoints, Segment.new, V2.perp, V2.rperp, V2.mk.injEq] at e
    apply hu
    ext
    · simp only [V2.zero]; linarith [e.2]
    · simp only [V2.zero]; linarith [e.1]

/-- The segment from (0,0) to (2,0), constructed and then given the very same ends. -/
example : (Segment.new toyMth (⟨0, 0⟩ : V2 ℚ) ⟨2, 0⟩ 1).n = ⟨0, -1⟩ ∧
    ((Segment.new toyMth (⟨0, 0⟩ : V2 ℚ) ⟨2, 0⟩ 1).setEndpoints toyMth ⟨0, 0⟩ ⟨2, 0⟩).n = ⟨0, 1⟩ := by
  decide +kernel

end Cm
