import Verif.Props.ShapeBox
/-! # C46: point queries -/
set_option linter.unusedSectionVars false
set_option linter.unusedSimpArgs false

namespace Cm
open Spec
variable {K : Type} [Field K] [LinearOrder K] [IsStrictOrderedRing K]

namespace Spec

/-- Distance of two points. -/
def dist (M : Mth K) (p q : V2 K) : K := M.sqrt (dist2 p q)

/-- `δ` is the distance from `p` to the set `S`, and it is attained. -/
def DistTo (M : Mth K) (S : V2 K → Prop) (p : V2 K) (δ : K) : Prop :=
  (∃ x, S x ∧ dist M p x = δ) ∧ ∀ x, S x → δ ≤ dist M p x

/-- The surface of a circle or a segment with radius: the points whose distance to the skeleton is the radius. -/
def OnSurface (M : Mth K) (s : Cls K) (q : V2 K) : Prop := DistTo M (Core s) q (radiusOf s)

end Spec

/-! ## Distances -/

theorem dist_eq_mag (M : Mth K) (p q : V2 K) : dist M p q = (p.sub q).mag M := by
  unfold Spec.dist V2.mag
  congr 1
  simp only [dist2, V2.lengthSq, V2.dot, V2.sub]; ring

theorem dist2_nonneg (p q : V2 K) : 0 ≤ dist2 p q := add_nonneg (sq_nonneg _) (sq_nonneg _)

theorem dist2_comm (p q : V2 K) : dist2 p q = dist2 q p := by simp only [dist2]; ring

theorem dist_nonneg {M : Mth K} (hM : M.Lawful) (p q : V2 K) : 0 ≤ dist M p q := hM.sqrt_nonneg _ (dist2_nonneg p q)

theorem dist_sq {M : Mth K} (hM : M.Lawful) (p q : V2 K) : dist M p q * dist M p q = dist2 p q :=
  hM.sqrt_sq _ (dist2_nonneg p q)

theorem dist_comm (M : Mth K) (p q : V2 K) : dist M p q = dist M q p := by rw [Spec.dist, dist2_comm]; rfl

theorem dist_le_iff {M : Mth K} (hM : M.Lawful) (p q : V2 K) (r : K) (hr : 0 ≤ r) : dist M p q ≤ r ↔ dist2 p q ≤ r * r := by
  rw [← dist_sq hM]
  exact (mul_self_le_mul_self_iff (dist_nonneg hM p q) hr)

theorem dist_le_dist {M : Mth K} (hM : M.Lawful) (p q x y : V2 K) : dist M p q ≤ dist M x y ↔ dist2 p q ≤ dist2 x y := by
  rw [dist_le_iff hM _ _ _ (dist_nonneg hM x y), dist_sq hM]

theorem dist_eq_of_sq {M : Mth K} (hM : M.Lawful) (p q : V2 K) (r : K) (hr : 0 ≤ r) (h : dist2 p q = r * r) : dist M p q = r := by
  rw [← dist_sq hM] at h
  exact (mul_self_inj (dist_nonneg hM p q) hr).1 h

theorem dist_self_iff {M : Mth K} (hM : M.Lawful) (p q : V2 K) : dist M p q = 0 ↔ p = q := by
  constructor
  · intro h
    have := dist_sq hM p q
    rw [h, mul_zero] at this
    simp only [dist2] at this
    have h1 := sq_nonneg (p.x - q.x)
    have h2 := sq_nonneg (p.y - q.y)
    ext
    · exact sub_eq_zero.1 (pow_eq_zero_iff (two_ne_zero) |>.1 (by linarith))
    · exact sub_eq_zero.1 (pow_eq_zero_iff (two_ne_zero) |>.1 (by linarith))
  · rintro rfl
    exact dist_eq_of_sq hM _ _ 0 (le_refl _) (by simp [dist2])

/-- Cauchy-Schwarz. -/
theorem dot_le_mag {M : Mth K} (hM : M.Lawful) (u v : V2 K) : u.dot v ≤ u.mag M * v.mag M := by
  by_contra hc
  have hc := not_le.1 hc
  have h0 : 0 ≤ u.mag M * v.mag M := mul_nonneg (mag_nonneg hM u) (mag_nonneg hM v)
  have h1 := mul_self_lt_mul_self h0 hc
  have h2 := mag_sq hM u
  have h3 := mag_sq hM v
  have : u.mag M * v.mag M * (u.mag M * v.mag M) = u.lengthSq * v.lengthSq := by rw [← h2, ← h3]; ring
  rw [this] at h1
  simp only [V2.lengthSq, V2.dot] at h1
  nlinarith [sq_nonneg (u.x * v.y - u.y * v.x)]

theorem dist_triangle {M : Mth K} (hM : M.Lawful) (p x q : V2 K) : dist M p q ≤ dist M p x + dist M x q := by
  have h0 : 0 ≤ dist M p x + dist M x q := add_nonneg (dist_nonneg hM _ _) (dist_nonneg hM _ _)
  rw [dist_le_iff hM _ _ _ h0]
  have h1 := dist_sq hM p x
  have h2 := dist_sq hM x q
  have h3 := dot_le_mag hM (p.sub x) (x.sub q)
  rw [← dist_eq_mag, ← dist_eq_mag] at h3
  have : dist2 p q = dist2 p x + dist2 x q + 2 * (p.sub x).dot (x.sub q) := by
    simp only [dist2, V2.dot, V2.sub]; ring
  rw [this, ← h1, ← h2]
  nlinarith

/-! ## The nearest point of a convex set -/

/-- At the nearest point of a segment the angle is not acute. -/
theorem closest_obtuse (p a b : V2 K) (hab : a ≠ b) (x : V2 K) (hx : OnSegment a b x) :
    (x.sub (closestPointOnSegment p a b)).dot (p.sub (closestPointOnSegment p a b)) ≤ 0 := by
  obtain ⟨⟨s, s0, s1, hs⟩, hmin⟩ := C63_closest_on_segment p a b hab
  obtain ⟨t, t0, t1, rfl⟩ := hx
  set c := closestPointOnSegment p a b with hc
  by_contra hcon
  have hcon := not_le.1 hcon
  -- moving a little from the nearest point towards x comes nearer
  set e := At a b t with he
  set A := dist2 e c with hA
  set D := (e.sub c).dot (p.sub c) with hD
  have hA0 : 0 ≤ A := dist2_nonneg _ _
  have hApos : 0 < A := by
    rcases hA0.lt_or_eq with h | h
    · exact h
    · exfalso
      have hx : e = c := by
        have h1 := sq_nonneg (e.x - c.x)
        have h2 := sq_nonneg (e.y - c.y)
        simp only [hA, dist2] at h
        ext
        · exact sub_eq_zero.1 (pow_eq_zero_iff (two_ne_zero) |>.1 (by linarith))
        · exact sub_eq_zero.1 (pow_eq_zero_iff (two_ne_zero) |>.1 (by linarith))
      rw [hD, hx] at hcon
      simp [V2.sub, V2.dot] at hcon
  set u := min 1 (D / A) with hu
  have hu0 : 0 < u := lt_min zero_lt_one (div_pos hcon hApos)
  have hu1 : u ≤ 1 := min_le_left _ _
  have huA : u * A ≤ D := by
    have : u ≤ D / A := min_le_right _ _
    calc u * A ≤ D / A * A := mul_le_mul_of_nonneg_right this hA0
      _ = D := div_mul_cancel₀ _ (ne_of_gt hApos)
  have hm := hmin (s + u * (1 - t - s)) (by nlinarith) (by nlinarith)
  have hpt : At b a (s + u * (1 - t - s)) = At c e u := by
    rw [hs, he]
    simp only [At]; ext <;> simp only <;> ring
  rw [hpt] at hm
  have hexp : dist2 (At c e u) p = dist2 c p - 2 * u * D + u ^ 2 * A := by
    simp only [dist2, At, hD, hA, V2.sub, V2.dot]; ring
  rw [hexp] at hm
  nlinarith

theorem Spec.OnSegment.symm {a b x : V2 K} (h : OnSegment a b x) : OnSegment b a x := by
  obtain ⟨t, h0, h1, rfl⟩ := h
  exact ⟨1 - t, by linarith, by linarith, by simp only [At]; ext <;> simp only <;> ring⟩

theorem closest_onSegment (p a b : V2 K) (hab : a ≠ b) : OnSegment a b (closestPointOnSegment p a b) := by
  obtain ⟨⟨s, s0, s1, hs⟩, _⟩ := C63_closest_on_segment p a b hab
  exact OnSegment.symm ⟨s, s0, s1, hs⟩

theorem closest_distTo {M : Mth K} (hM : M.Lawful) (p a b : V2 K) (hab : a ≠ b) :
    DistTo M (OnSegment a b) p (dist M p (closestPointOnSegment p a b)) := by
  refine ⟨⟨_, closest_onSegment p a b hab, rfl⟩, ?_⟩
  intro x hx
  obtain ⟨t, h0, h1, rfl⟩ := hx.symm
  rw [dist_le_dist hM, dist2_comm, dist2_comm p]
  exact (C63_closest_on_segment p a b hab).2 t h0 h1

/-- Going out from a point `c` of a set in a direction `g` that no point of the set lies ahead of, the nearest
point stays `c`. -/
theorem distTo_ray {M : Mth K} (hM : M.Lawful) (S : V2 K → Prop) (c g : V2 K) (r : K) (hr : 0 ≤ r)
    (hg : g.x ^ 2 + g.y ^ 2 = 1) (hc : S c) (ho : ∀ x, S x → (x.sub c).dot g ≤ 0) :
    DistTo M S (c.add (g.scale r)) r := by
  refine ⟨⟨c, hc, dist_eq_of_sq hM _ _ r hr ?_⟩, ?_⟩
  · simp only [dist2, V2.add, V2.scale]; linear_combination r * r * hg
  · intro x hx
    by_contra hcon
    have hcon := not_le.1 hcon
    have h1 := mul_self_lt_mul_self (dist_nonneg hM _ _) hcon
    rw [dist_sq hM] at h1
    have h2 := ho x hx
    have : dist2 (c.add (g.scale r)) x = dist2 c x - 2 * r * (x.sub c).dot g + r * r := by
      simp only [dist2, V2.add, V2.scale, V2.sub, V2.dot]; linear_combination r * r * hg
    rw [this] at h1
    nlinarith [dist2_nonneg c x, mul_nonneg hr (neg_nonneg.2 h2)]

/-- The distance to a set changes by at most the way gone. -/
theorem distTo_lipschitz {M : Mth K} (hM : M.Lawful) (S : V2 K → Prop) (p q : V2 K) (δ ε : K)
    (hp : DistTo M S p δ) (hq : DistTo M S q ε) : |δ - ε| ≤ dist M p q := by
  obtain ⟨⟨x, hx, ex⟩, hmin⟩ := hp
  obtain ⟨⟨y, hy, ey⟩, hmin'⟩ := hq
  have h1 := (hmin y hy).trans (dist_triangle hM p q y)
  have h2 := (hmin' x hx).trans (dist_triangle hM q p x)
  rw [dist_comm M q p] at h2
  rw [abs_le]
  constructor <;> linarith

/-! ## C46 -/

/-- **C46.** On circles and segments `PointQuery` reports the signed distance: the distance to the skeleton minus the
radius, negative or zero exactly for the points of the shape. -/
theorem C46_distance {M : Mth K} (hM : M.Lawful) (inf eps : K) (s : Cls K) (hr : 0 ≤ radiusOf s) (p : V2 K)
    (hs : (∃ c, s = .circle c) ∨ ∃ g, s = .segment g ∧ g.ta ≠ g.tb) :
    let i := s.pointQuery M inf eps p
    DistTo M (Core s) p (i.dist + radiusOf s) ∧ (InShape s p ↔ i.dist ≤ 0) := by
  have key : DistTo M (Core s) p ((s.pointQuery M inf eps p).dist + radiusOf s) := by
    rcases hs with ⟨c, rfl⟩ | ⟨g, rfl, hne⟩
    · simp only [Cls.pointQuery, Circle.pointQuery, radiusOf, sub_add_cancel, ← dist_eq_mag]
      exact ⟨⟨_, rfl, rfl⟩, fun x hx => by rw [show x = c.tc from hx]⟩
    · simp only [Cls.pointQuery, Segment.pointQuery, radiusOf, sub_add_cancel, ← dist_eq_mag]
      exact closest_distTo hM p g.ta g.tb hne
  refine ⟨key, ?_⟩
  obtain ⟨⟨x, hx, ex⟩, hmin⟩ := key
  constructor
  · rintro ⟨q, hq, hd⟩
    have := hmin q hq
    rw [← dist_le_iff hM _ _ _ hr] at hd
    linarith
  · intro h
    refine ⟨x, hx, ?_⟩
    rw [← dist_le_iff hM _ _ _ hr, ex]
    linarith

/-- **C46.** On circles and segments, for every point off the skeleton, `PointQuery` reports a point of the surface,
no point of the surface is nearer, and the distance reported is, up to its sign, the distance to that point. -/
theorem C46_nearest_surface_point {M : Mth K} (hM : M.Lawful) (inf eps : K) (s : Cls K) (hr : 0 ≤ radiusOf s) (p : V2 K)
    (hs : (∃ c, s = .circle c) ∨ ∃ g, s = .segment g ∧ g.ta ≠ g.tb) (hp : ¬ Core s p) :
    let i := s.pointQuery M inf eps p
    OnSurface M s i.point ∧ dist M p i.point = |i.dist| ∧ ∀ q, OnSurface M s q → dist M p i.point ≤ dist M p q := by
  obtain ⟨hdist, _⟩ := C46_distance hM inf eps s hr p hs
  have key : ∃ c, Core s c ∧ (∀ x, Core s x → (x.sub c).dot (p.sub c) ≤ 0) ∧
      (s.pointQuery M inf eps p).point = c.add (((p.sub c).scale (1 / (p.sub c).mag M)).scale (radiusOf s)) ∧
      (s.pointQuery M inf eps p).dist = dist M p c - radiusOf s := by
    rcases hs with ⟨c, rfl⟩ | ⟨g, rfl, hne⟩
    · refine ⟨c.tc, rfl, ?_, ?_, ?_⟩
      · intro x hx
        rw [show x = c.tc from hx]
        simp [V2.sub, V2.dot]
      · simp only [Cls.pointQuery, Circle.pointQuery, radiusOf, V2.scale, V2.add]
        ext <;> simp only <;> ring
      · simp only [Cls.pointQuery, Circle.pointQuery, radiusOf, dist_eq_mag]
    · refine ⟨closestPointOnSegment p g.ta g.tb, closest_onSegment p _ _ hne, closest_obtuse p _ _ hne, ?_, ?_⟩
      · have hd : (p.sub (closestPointOnSegment p g.ta g.tb)).mag M ≠ 0 := by
          intro e
          rw [← dist_eq_mag, dist_self_iff hM] at e
          apply hp
          have := closest_onSegment p _ _ hne
          rw [← e] at this
          exact this
        simp only [Cls.pointQuery, Segment.pointQuery, radiusOf, if_pos hd]
      · simp only [Cls.pointQuery, Segment.pointQuery, radiusOf, dist_eq_mag]
  obtain ⟨c, hc, ho, hpt, hd⟩ := key
  have hne : p.sub c ≠ V2.zero := by
    intro e
    apply hp
    have : p = c := by
      simp only [V2.sub, V2.zero, V2.mk.injEq] at e
      ext
      · linarith [e.1]
      · linarith [e.2]
    rw [this]; exact hc
  have hmag : 0 < (p.sub c).mag M := lt_of_le_of_ne (mag_nonneg hM _) (fun e => hne (mag_eq_zero hM _ e.symm))
  have hu := mag_scale_inv hM _ hne
  set g := (p.sub c).scale (1 / (p.sub c).mag M) with hg
  have hog : ∀ x, Core s x → (x.sub c).dot g ≤ 0 := by
    intro x hx
    have := ho x hx
    have e : (x.sub c).dot g = (x.sub c).dot (p.sub c) * (1 / (p.sub c).mag M) := by
      simp only [hg, V2.dot, V2.scale]; ring
    rw [e]
    exact mul_nonpos_of_nonpos_of_nonneg this (le_of_lt (one_div_pos.2 hmag))
  have hsurf : OnSurface M s (c.add (g.scale (radiusOf s))) := distTo_ray hM _ c g _ hr hu hc hog
  have hpg : p = c.add (g.scale (dist M p c)) := by
    rw [dist_eq_mag]
    simp only [hg, V2.add, V2.scale, V2.sub]
    have : (p.sub c).mag M ≠ 0 := ne_of_gt hmag
    ext <;> simp only <;> (simp only [V2.sub] at this; field_simp; ring)
  have hdd : dist M p (c.add (g.scale (radiusOf s))) = |dist M p c - radiusOf s| := by
    apply dist_eq_of_sq hM _ _ _ (abs_nonneg _)
    rw [abs_mul_abs_self]
    set δ := dist M p c with hδ
    rw [hpg]
    simp only [dist2, V2.add, V2.scale]
    linear_combination (δ - radiusOf s) ^ 2 * hu
  refine ⟨by rw [hpt]; exact hsurf, by rw [hpt, hdd, hd], ?_⟩
  intro q hq
  rw [hpt, hdd]
  have := distTo_lipschitz hM _ p q _ _ hdist hq
  rw [hd, sub_add_cancel] at this
  exact this

/-- **C46.** The gradient, when the distance is not tiny, is the unit vector along which the signed distance grows:
going back along it by the distance leads to the point reported. -/
theorem C46_gradient {M : Mth K} (hM : M.Lawful) (inf eps : K) (heps : 0 ≤ eps) (s : Cls K) (p : V2 K)
    (hs : (∃ c, s = .circle c) ∨ ∃ g, s = .segment g)
    (hd : eps < (s.pointQuery M inf eps p).dist + radiusOf s) :
    let i := s.pointQuery M inf eps p
    i.grad.x ^ 2 + i.grad.y ^ 2 = 1 ∧ p = i.point.add (i.grad.scale i.dist) := by
  have key : ∃ c, eps < (p.sub c).mag M ∧ (s.pointQuery M inf eps p).grad = (p.sub c).scale (1 / (p.sub c).mag M) ∧
      (s.pointQuery M inf eps p).point = c.add (((p.sub c).scale (1 / (p.sub c).mag M)).scale (radiusOf s)) ∧
      (s.pointQuery M inf eps p).dist = (p.sub c).mag M - radiusOf s := by
    rcases hs with ⟨c, rfl⟩ | ⟨g, rfl⟩
    · simp only [Cls.pointQuery, Circle.pointQuery, radiusOf, sub_add_cancel] at hd ⊢
      refine ⟨c.tc, hd, by rw [if_pos hd], ?_, rfl⟩
      simp only [V2.scale, V2.add]
      ext <;> simp only <;> ring
    · simp only [Cls.pointQuery, Segment.pointQuery, radiusOf, sub_add_cancel] at hd ⊢
      exact ⟨_, hd, by rw [if_pos hd], by rw [if_pos (ne_of_gt (lt_of_le_of_lt heps hd))], rfl⟩
  obtain ⟨c, hgt, e1, e2, e3⟩ := key
  have hpos := lt_of_le_of_lt heps hgt
  have hne : p.sub c ≠ V2.zero := by
    intro e
    rw [e, mag_zero hM] at hpos
    exact lt_irrefl _ hpos
  refine ⟨by rw [e1]; exact mag_scale_inv hM _ hne, ?_⟩
  rw [e1, e2, e3]
  have := ne_of_gt hpos
  simp only [V2.add, V2.scale]
  ext <;> simp only [V2.sub] at * <;> (field_simp; ring)

/-- **C46 (violated on the skeleton).** On the skeleton of a segment with positive radius the point reported is the query
point itself, which is not on the surface, although the distance reported is the negative radius. -/
theorem C46_segment_on_skeleton {M : Mth K} (hM : M.Lawful) (eps : K) (heps : 0 ≤ eps) (s : Segment K) (hne : s.ta ≠ s.tb) (hr : 0 < s.radius)
    (p : V2 K) (hp : OnSegment s.ta s.tb p) :
    (s.pointQuery M eps p).point = p ∧ ¬ OnSurface M (.segment s) (s.pointQuery M eps p).point ∧
    (s.pointQuery M eps p).dist = -s.radius ∧ (s.pointQuery M eps p).grad = s.n := by
  have h0 : dist M p (closestPointOnSegment p s.ta s.tb) = 0 := by
    apply le_antisymm
    · have := (closest_distTo hM p s.ta s.tb hne).2 p hp
      rw [(dist_self_iff hM p p).2 rfl] at this
      exact this
    · exact dist_nonneg hM _ _
  have e := (dist_self_iff hM _ _).1 h0
  have h0' : (p.sub (closestPointOnSegment p s.ta s.tb)).mag M = 0 := by rw [← dist_eq_mag]; exact h0
  have hpt : (s.pointQuery M eps p).point = p := by
    simp only [Segment.pointQuery, h0']
    rw [if_neg (by simp), ← e]
  refine ⟨hpt, ?_, ?_, ?_⟩
  · rw [hpt]
    intro hs
    have := hs.2 p hp
    rw [(dist_self_iff hM p p).2 rfl] at this
    exact absurd this (not_le.2 hr)
  · simp only [Segment.pointQuery, h0', zero_sub]
  · simp only [Segment.pointQuery, h0']
    rw [if_neg (not_lt.2 heps)]

end Cm
