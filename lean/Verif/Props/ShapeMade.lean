import Verif.Model.ShapeMade
import Verif.Props.ShapePoly
import Verif.Props.Hull
import Verif.Props.Body
/-! # C95: what the constructors make; C96: masses follow the shapes -/
set_option linter.unusedSectionVars false
set_option linter.unusedSimpArgs false
set_option linter.unusedVariables false

namespace Cm
open Spec
variable {K : Type} [Field K] [LinearOrder K] [IsStrictOrderedRing K]

/-! ## C95 -/

theorem unit_lengthSq {M : Mth K} (hM : M.Lawful) {v : V2 K} (hv : v ≠ V2.zero) : (v.unit M).lengthSq = 1 := by
  have := mag_scale_inv hM v hv
  have e : v.unit M = v.scale (1 / v.mag M) := rfl
  rw [e]
  simp only [V2.lengthSq, V2.dot]
  linarith

/-- **C95.** A segment made with different ends and cached under a rigid motion has its ends and all points between where the motion takes them; they are different, and its
normal is a unit vector at right angles to it, on the right of the direction from the first to the second end. -/
theorem C95_segment {M : Mth K} (hM : M.Lawful) (t : Transform K) (ht : Rigid t) (a b : V2 K) (hab : a ≠ b) (r : K) :
    ((Segment.new M a b r).cache t).1.ta = t.apply a ∧ ((Segment.new M a b r).cache t).1.tb = t.apply b ∧ t.apply a ≠ t.apply b ∧
    ((Segment.new M a b r).cache t).1.radius = r ∧ ((Segment.new M a b r).cache t).1.tn.lengthSq = 1 ∧
    ((Segment.new M a b r).cache t).1.tn.dot ((t.apply b).sub (t.apply a)) = 0 ∧
    ((t.apply b).sub (t.apply a)).cross ((Segment.new M a b r).cache t).1.tn < 0 := by
  have hd : b.sub a ≠ V2.zero := by
    intro h
    simp only [V2.sub, V2.zero, V2.mk.injEq] at h
    exact hab (V2.ext (by linarith [h.1]) (by linarith [h.2]))
  have hu := unit_lengthSq hM hd
  have hm : 0 < (b.sub a).mag M := lt_of_le_of_ne (mag_nonneg hM _) (fun h => hd (mag_eq_zero hM _ h.symm))
  have e : (b.sub a).unit M = (b.sub a).scale (1 / (b.sub a).mag M) := rfl
  obtain ⟨h1, h2, h3⟩ := ht
  refine ⟨rfl, rfl, fun h => ?_, rfl, ?_, ?_, ?_⟩
  · have h' := rigid_dist2 t ⟨h1, h2, h3⟩ a b
    rw [h] at h'
    have h0 : dist2 a b = 0 := by rw [← h']; simp [dist2]
    simp only [dist2] at h0
    apply hab
    ext <;> nlinarith [sq_nonneg (a.x - b.x), sq_nonneg (a.y - b.y)]
  · show (t.applyVector (((b.sub a).unit M).rperp)).lengthSq = 1
    simp only [V2.lengthSq, V2.dot, Transform.applyVector, V2.rperp, h2, h3] at hu ⊢
    linear_combination ((b.sub a).unit M).x ^ 2 * h1 + ((b.sub a).unit M).y ^ 2 * h1 + hu
  · show (t.applyVector (((b.sub a).unit M).rperp)).dot _ = 0
    rw [e]
    simp only [V2.dot, Transform.applyVector, Transform.apply, V2.rperp, V2.sub, V2.scale, h2, h3]
    ring
  · show ((t.apply b).sub (t.apply a)).cross (t.applyVector (((b.sub a).unit M).rperp)) < 0
    have : ((t.apply b).sub (t.apply a)).cross (t.applyVector (((b.sub a).unit M).rperp)) = -((t.a ^ 2 + t.b ^ 2) * ((b.sub a).lengthSq * (1 / (b.sub a).mag M))) := by
      rw [e]
      simp only [V2.cross, V2.lengthSq, V2.dot, Transform.applyVector, Transform.apply, V2.rperp, V2.sub, V2.scale, h2, h3]
      ring
    rw [this, h1, one_mul]
    have hl : 0 < (b.sub a).lengthSq := by
      have := mag_sq hM (b.sub a)
      nlinarith [mul_pos hm hm]
    have := mul_pos hl (one_div_pos.2 hm)
    linarith

/-- **C95.** After `SetEndpoints` the normal is on the other side: on the left. -/
theorem C95_segment_side {M : Mth K} (hM : M.Lawful) (s : Segment K) (a b : V2 K) (r : K) :
    (s.setEndpoints M a b).n = (Segment.new M a b r).n.neg := by
  ext <;> simp [Segment.setEndpoints, Segment.new, V2.perp, V2.rperp, V2.neg]

theorem boxVerts_convex (bb : BB K) (hx : bb.L < bb.R) (hy : bb.B < bb.T) : ConvexCCW (boxVerts bb) := by
  refine ⟨by simp [boxVerts], ?_, ?_⟩
  · have h1 := ne_of_lt hx
    have h2 := ne_of_lt hy
    simp [boxVerts, h1, h2, Ne.symm h1, Ne.symm h2]
  · intro e he
    simp only [boxVerts, List.getLastD_cons, List.getLastD_nil, pairsFrom, List.mem_cons, List.not_mem_nil, or_false] at he
    have hp := mul_pos (sub_pos.2 hx) (sub_pos.2 hy)
    rcases he with rfl | rfl | rfl | rfl
    all_goals
      refine ⟨by simp [ne_of_lt hx, ne_of_lt hy, (ne_of_lt hx).symm, (ne_of_lt hy).symm], fun w hw => ?_⟩
      simp only [boxVerts, List.mem_cons, List.not_mem_nil, or_false] at hw
      rcases hw with rfl | rfl | rfl | rfl
      all_goals
        first
          | exact Or.inl rfl
          | exact Or.inr (Or.inl rfl)
          | (right; right; simp only [V2.cross, V2.sub]; nlinarith)

/-- **C95.** A box of positive width and height, cached under a rigid motion, is a convex polygon listed counter-clockwise with outward unit normals, and before the motion it is exactly
the points within half the width and half the height of the origin. -/
theorem C95_box {M : Mth K} (hM : M.Lawful) (inf : K) (t : Transform K) (ht : Rigid t) (w h r : K) (hw : 0 < w) (hh : 0 < h) :
    Outline ((newBox M w h r).cache inf t).1.world ∧ (∀ pl ∈ ((newBox M w h r).cache inf t).1.world, pl.n.x ^ 2 + pl.n.y ^ 2 = 1) ∧
    (∀ x, LocalCore (.poly (newBox M w h r)) x ↔ |x.x| ≤ w / 2 ∧ |x.y| ≤ h / 2) ∧
    (∀ x, LocalCore (.poly (newBox M w h r)) x → Core (.poly ((newBox M w h r).cache inf t).1) (t.apply x)) := by
  have hc : ConvexCCW (boxVerts (⟨-(w / 2), -(h / 2), w / 2, h / 2⟩ : BB K)) := boxVerts_convex _ (by simp only; linarith) (by simp only; linarith)
  obtain ⟨o1, o2, o3⟩ := C46_outline hM inf r t ht _ hc
  refine ⟨o1, o3, fun x => ?_, fun x hx => ?_⟩
  · have hl : (newBox M w h r).loc.map Plane.v0 = boxVerts (⟨-(w / 2), -(h / 2), w / 2, h / 2⟩ : BB K) := setVertsGo_verts M _ _
    simp only [LocalCore, hl]
    constructor
    · intro hx
      induction hx with
      | vert v hv =>
        simp only [boxVerts, List.mem_cons, List.not_mem_nil, or_false] at hv
        rcases hv with rfl | rfl | rfl | rfl <;> simp only [abs_neg] <;> rw [abs_of_pos (by linarith), abs_of_pos (by linarith)] <;> exact ⟨le_rfl, le_rfl⟩
      | mix p q s _ _ h0 h1 ih1 ih2 =>
        simp only [abs_le] at *
        simp only [At]
        obtain ⟨⟨a1, a2⟩, a3, a4⟩ := ih1
        obtain ⟨⟨b1, b2⟩, b3, b4⟩ := ih2
        refine ⟨⟨?_, ?_⟩, ?_, ?_⟩ <;> nlinarith
    · rintro ⟨hx, hy⟩
      rw [abs_le] at hx hy
      -- first across, then up
      have hR : ∀ (c d : V2 K) (s : K), 0 ≤ s → s ≤ 1 → c ∈ boxVerts (⟨-(w / 2), -(h / 2), w / 2, h / 2⟩ : BB K) → d ∈ boxVerts (⟨-(w / 2), -(h / 2), w / 2, h / 2⟩ : BB K) →
          Hull (boxVerts (⟨-(w / 2), -(h / 2), w / 2, h / 2⟩ : BB K)) (At c d s) := fun c d s h0 h1 hc hd => Hull.mix _ _ _ (Hull.vert _ hc) (Hull.vert _ hd) h0 h1
      have a0 : 0 ≤ (x.x + w / 2) / w := div_nonneg (by linarith) hw.le
      have a1 : (x.x + w / 2) / w ≤ 1 := by rw [div_le_one hw]; linarith
      have b0 : 0 ≤ (x.y + h / 2) / h := div_nonneg (by linarith) hh.le
      have b1 : (x.y + h / 2) / h ≤ 1 := by rw [div_le_one hh]; linarith
      have low := hR ⟨-(w / 2), -(h / 2)⟩ ⟨w / 2, -(h / 2)⟩ _ a0 a1 (by simp [boxVerts]) (by simp [boxVerts])
      have high := hR ⟨-(w / 2), h / 2⟩ ⟨w / 2, h / 2⟩ _ a0 a1 (by simp [boxVerts]) (by simp [boxVerts])
      have := Hull.mix _ _ _ low high b0 b1
      have e : At (At (⟨-(w / 2), -(h / 2)⟩ : V2 K) ⟨w / 2, -(h / 2)⟩ ((x.x + w / 2) / w)) (At ⟨-(w / 2), h / 2⟩ ⟨w / 2, h / 2⟩ ((x.x + w / 2) / w)) ((x.y + h / 2) / h) = x := by
        have hw' := ne_of_gt hw
        have hh' := ne_of_gt hh
        ext <;> simp only [At] <;> field_simp <;> ring
      rwa [e] at this
  · have hl : (newBox M w h r).loc.map Plane.v0 = boxVerts (⟨-(w / 2), -(h / 2), w / 2, h / 2⟩ : BB K) := setVertsGo_verts M _ _
    simp only [LocalCore, hl] at hx
    show Hull (((newBox M w h r).cache inf t).1.world.map Plane.v0) (t.apply x)
    rw [show ((newBox M w h r).cache inf t).1.world.map Plane.v0 = _ from o2]
    induction hx with
    | vert v hv => exact Hull.vert _ (List.mem_map_of_mem hv)
    | mix p q s _ _ h0 h1 ih1 ih2 =>
      have : t.apply (At p q s) = At (t.apply p) (t.apply q) s := by
        ext <;> simp only [At, Transform.apply] <;> ring
      rw [this]
      exact Hull.mix _ _ _ ih1 ih2 h0 h1

/-- **C95.** `NewPolyShape` never fails on a list with points in it; the polygon's skeleton is the convex hull of the transformed points, whatever the transform (it may
mirror), and if no three of them lie on a line (and there are three) it is, cached under a rigid motion, a strictly convex polygon listed counter-clockwise with
outward unit normals. -/
theorem C95_poly {M : Mth K} (hM : M.Lawful) (inf : K) (t : Transform K) (ht : Rigid t) (verts : List (V2 K)) (hne : verts ≠ []) (t0 : Transform K) (r : K) :
    ∃ p, newPoly M verts t0 r = some p ∧ p.radius = r ∧ (∀ x, LocalCore (.poly p) x ↔ Hull (verts.map t0.apply) x) ∧
      ((∀ u ∈ verts.map t0.apply, ∀ v ∈ verts.map t0.apply, ∀ w ∈ verts.map t0.apply, u ≠ v → v ≠ w → u ≠ w → offset u v w ≠ 0) →
       (∃ u ∈ verts.map t0.apply, ∃ v ∈ verts.map t0.apply, ∃ w ∈ verts.map t0.apply, u ≠ v ∧ v ≠ w ∧ u ≠ w) →
        Outline (p.cache inf t).1.world ∧ ∀ pl ∈ (p.cache inf t).1.world, pl.n.x ^ 2 + pl.n.y ^ 2 = 1) := by
  obtain ⟨hull, e, -⟩ := C52_hull M (verts.map t0.apply) (by simpa using hne)
  refine ⟨Poly.new M hull r, by simp only [newPoly, e, Option.map_some], rfl, fun x => ?_, fun h1 h2 => ?_⟩
  · show Hull ((setVertsGo M _ hull).map Plane.v0) x ↔ _
    rw [setVertsGo_verts]
    exact C52_same_points M _ hull e x
  · obtain ⟨o1, -, o3⟩ := C46_outline hM inf r t ht hull (C52_strict M _ hull e h1 h2)
    exact ⟨o1, o3⟩

/-- A mirrored triangle: clockwise input, a transform of determinant -1, the planes come out counter-clockwise. -/
example : (newPoly gridMth [⟨0, 0⟩, ⟨3, 0⟩, ⟨0, 4⟩] ⟨-1, 0, 0, 1, 0, 0⟩ (1/4)).map (fun p => p.loc.map Plane.v0) = some [⟨-3, 0⟩, ⟨0, 0⟩, ⟨0, 4⟩] := by decide +kernel

/-- A segment of length five made and turned a quarter. -/
example : ((Segment.new gridMth ⟨0, 0⟩ ⟨3, 4⟩ (1/2)).cache ⟨0, 1, -1, 0, 7, 0⟩).1.tn = ⟨3/5, 4/5⟩ := by decide +kernel

end Cm
