import Verif.Props.Gjk
/-! # C44, C48, C49: contacts, collision queries -/
set_option linter.unusedSectionVars false
set_option linter.unusedSimpArgs false
set_option linter.unusedVariables false

namespace Cm
open Spec
variable {K : Type} [Field K] [LinearOrder K] [IsStrictOrderedRing K]

/-! ## C44 -/

theorem dist_lt_iff {M : Mth K} (hM : M.Lawful) (p q : V2 K) (r : K) (hr : 0 ≤ r) : dist M p q < r ↔ dist2 p q < r * r := by
  rw [← dist_sq hM]
  exact mul_self_lt_mul_self_iff (dist_nonneg hM p q) hr

theorem dist2_lengthSq (x y : V2 K) : (y.sub x).lengthSq = dist2 x y := by simp only [dist2, V2.lengthSq, V2.dot, V2.sub]; ring

/-- The normal from `x` to `y`, with `n0` when they coincide, is a unit vector along which `y` lies at its distance. -/
theorem normal_spec {M : Mth K} (hM : M.Lawful) (x y n0 : V2 K) (h0 : n0.lengthSq = 1) (n : V2 K)
    (hn : n = if M.sqrt (y.sub x).lengthSq ≠ 0 then (y.sub x).scale (1 / M.sqrt (y.sub x).lengthSq) else n0) :
    n.lengthSq = 1 ∧ y = x.add (n.scale (dist M x y)) ∧ (x = y → n = n0) := by
  have hd : M.sqrt (y.sub x).lengthSq = dist M x y := by rw [dist2_lengthSq]; rfl
  rw [hd] at hn
  by_cases h : dist M x y = 0
  · rw [if_neg (by simpa using h)] at hn
    have e := (dist_self_iff hM x y).1 h
    subst hn
    refine ⟨h0, ?_, fun _ => rfl⟩
    rw [h, e]; simp [V2.add, V2.scale]
  · rw [if_pos h] at hn
    have hsq := dist_sq hM x y
    subst hn
    refine ⟨?_, ?_, fun e => absurd ((dist_self_iff hM x y).2 e) h⟩
    · simp only [V2.lengthSq, V2.dot, V2.scale, V2.sub, dist2] at *
      field_simp
      linear_combination -hsq
    · simp only [V2.add, V2.scale, V2.sub]; ext <;> simp only <;> field_simp <;> ring

/-- **C44.** Two circles collide exactly when their centres are nearer than the sum of the radii. Then there is one contact; its normal
is a unit vector from the first centre to the second ((1,0) for equal centres), the two contact points lie on the two circles along it,
and the depth is the distance of the centres less the radii. -/
theorem C44_circles {M : Mth K} (hM : M.Lawful) (c1 c2 : Circle K) (info : Info K) (hi : info.contacts = [])
    (hr : 0 ≤ c1.radius + c2.radius) :
    ((circleToCircle M c1 c2 info).contacts ≠ [] ↔ dist M c1.tc c2.tc < c1.radius + c2.radius) ∧
    (dist M c1.tc c2.tc < c1.radius + c2.radius →
      ∃ n p1 p2, (circleToCircle M c1 c2 info).n = n ∧ (circleToCircle M c1 c2 info).contacts = [⟨p1, p2, 0⟩] ∧
        n.lengthSq = 1 ∧ c2.tc = c1.tc.add (n.scale (dist M c1.tc c2.tc)) ∧
        p1 = c1.tc.add (n.scale c1.radius) ∧ p2 = c2.tc.sub (n.scale c2.radius) ∧
        (p2.sub p1).dot n = dist M c1.tc c2.tc - (c1.radius + c2.radius)) := by
  have hiff := dist_lt_iff hM c1.tc c2.tc _ hr
  unfold circleToCircle
  dsimp only
  rw [dist2_lengthSq] 
  by_cases h : dist2 c1.tc c2.tc < (c1.radius + c2.radius) * (c1.radius + c2.radius)
  · rw [if_pos h]
    refine ⟨by simp [hiff.2 h], fun _ => ?_⟩
    obtain ⟨n, hn⟩ : ∃ n, n = (if M.sqrt (c2.tc.sub c1.tc).lengthSq ≠ 0 then (c2.tc.sub c1.tc).scale (1 / M.sqrt (c2.tc.sub c1.tc).lengthSq) else ⟨1, 0⟩) :=
      ⟨_, rfl⟩
    obtain ⟨u, d, -⟩ := normal_spec hM c1.tc c2.tc ⟨1, 0⟩ (by simp [V2.lengthSq, V2.dot]) n hn
    rw [dist2_lengthSq] at hn
    rw [← hn]
    refine ⟨n, _, _, rfl, rfl, u, d, rfl, ?_, ?_⟩
    · simp only [V2.add, V2.sub, V2.scale]; ext <;> simp only <;> ring
    · generalize dist M c1.tc c2.tc = δ at d
      rw [d]
      simp only [V2.add, V2.sub, V2.scale, V2.dot, V2.lengthSq] at *
      linear_combination (δ - (c1.radius + c2.radius)) * u
  · rw [if_neg h]
    exact ⟨by simp [hi, hiff, h], fun h' => absurd (hiff.1 h') h⟩

/-- The end caps are not switched off by neighbours at the nearest point `q` with the normal `n`. -/
def Spec.CapsOn (seg : Segment K) (rot q n : V2 K) : Prop :=
  (q = seg.ta → 0 ≤ n.dot (seg.aTangent.rotate rot)) ∧ (q = seg.tb → 0 ≤ n.dot (seg.bTangent.rotate rot))

theorem at_eq_a (a b : V2 K) (hab : a ≠ b) (t : K) : a.add ((b.sub a).scale t) = a ↔ t = 0 := by
  constructor
  · intro h
    by_contra ht
    apply hab
    simp only [V2.add, V2.sub, V2.scale, V2.ext_iff] at *
    constructor
    · have : (b.x - a.x) * t = 0 := by linarith [h.1]
      rcases mul_eq_zero.1 this with h | h
      · linarith
      · exact absurd h ht
    · have : (b.y - a.y) * t = 0 := by linarith [h.2]
      rcases mul_eq_zero.1 this with h | h
      · linarith
      · exact absurd h ht
  · rintro rfl; simp [V2.add, V2.scale]

theorem at_eq_b (a b : V2 K) (hab : a ≠ b) (t : K) : a.add ((b.sub a).scale t) = b ↔ t = 1 := by
  have : a.add ((b.sub a).scale t) = b ↔ b.add ((a.sub b).scale (1 - t)) = b := by
    have : a.add ((b.sub a).scale t) = b.add ((a.sub b).scale (1 - t)) := by
      simp only [V2.add, V2.sub, V2.scale]; ext <;> simp only <;> ring
    rw [this]
  rw [this, at_eq_a b a (Ne.symm hab)]
  constructor <;> intro h <;> linarith

/-- **C44.** A circle and a segment collide exactly when the centre is nearer to the segment than the sum of the radii and the end cap it
meets, if any, is not switched off. The contact is that of the circle with the circle around the nearest point of the segment. -/
theorem C44_circle_segment {M : Mth K} (hM : M.Lawful) (c : Circle K) (seg : Segment K) (rot : V2 K) (info : Info K)
    (hi : info.contacts = []) (hr : 0 ≤ c.radius + seg.radius) (hab : seg.ta ≠ seg.tb) (htn : seg.tn.lengthSq = 1) :
    ∃ q δ n, OnSegment seg.ta seg.tb q ∧ δ = dist M c.tc q ∧ DistTo M (OnSegment seg.ta seg.tb) c.tc δ ∧
      n.lengthSq = 1 ∧ q = c.tc.add (n.scale δ) ∧ (c.tc = q → n = seg.tn) ∧
      ((circleToSegment M c seg rot info).contacts ≠ [] ↔ δ < c.radius + seg.radius ∧ CapsOn seg rot q n) ∧
      ((circleToSegment M c seg rot info).contacts ≠ [] →
        ∃ p1 p2, (circleToSegment M c seg rot info).n = n ∧ (circleToSegment M c seg rot info).contacts = [⟨p1, p2, 0⟩] ∧
          p1 = c.tc.add (n.scale c.radius) ∧ p2 = q.sub (n.scale seg.radius) ∧
          (p2.sub p1).dot n = δ - (c.radius + seg.radius)) := by
  have hq := closest_onSegment c.tc seg.tb seg.ta (Ne.symm hab)
  have hδ := closest_distTo hM c.tc seg.tb seg.ta (Ne.symm hab)
  have hδ' : DistTo M (OnSegment seg.ta seg.tb) c.tc (dist M c.tc (closestPointOnSegment c.tc seg.tb seg.ta)) :=
    ⟨by obtain ⟨x, hx, e⟩ := hδ.1; exact ⟨x, hx.symm, e⟩, fun x hx => hδ.2 x hx.symm⟩
  obtain ⟨t, ht⟩ : ∃ t, t = clamp01 ((seg.tb.sub seg.ta).dot (c.tc.sub seg.ta) / (seg.tb.sub seg.ta).lengthSq) := ⟨_, rfl⟩
  have hclosest : closestPointOnSegment c.tc seg.tb seg.ta = seg.ta.add ((seg.tb.sub seg.ta).scale t) := by rw [ht]; rfl
  obtain ⟨q, hqe⟩ : ∃ q, q = closestPointOnSegment c.tc seg.tb seg.ta := ⟨_, rfl⟩
  obtain ⟨n, hn⟩ : ∃ n, n = (if M.sqrt (q.sub c.tc).lengthSq ≠ 0 then (q.sub c.tc).scale (1 / M.sqrt (q.sub c.tc).lengthSq) else seg.tn) := ⟨_, rfl⟩
  obtain ⟨u, d, e0⟩ := normal_spec hM c.tc q seg.tn htn n hn
  have hiff := dist_lt_iff hM c.tc q _ hr
  have hcaps : CapsOn seg rot q n ↔ (t ≠ 0 ∨ n.dot (seg.aTangent.rotate rot) ≥ 0) ∧ (t ≠ 1 ∨ n.dot (seg.bTangent.rotate rot) ≥ 0) := by
    unfold CapsOn
    rw [hqe, hclosest, at_eq_a _ _ hab, at_eq_b _ _ hab, imp_iff_not_or, imp_iff_not_or]
  rw [← hqe] at hq hδ' 
  refine ⟨q, dist M c.tc q, n, hq.symm, rfl, hδ', u, d, e0, ?_⟩
  unfold circleToSegment
  dsimp only
  rw [← ht, ← hclosest, ← hqe, ← hn, dist2_lengthSq]
  by_cases h : dist2 c.tc q < (c.radius + seg.radius) * (c.radius + seg.radius)
  · rw [if_pos h]
    dsimp only
    by_cases hc : CapsOn seg rot q n
    · rw [if_pos (hcaps.1 hc)]
      refine ⟨by simp [hiff.2 h, hc], fun _ => ⟨_, _, rfl, rfl, rfl, ?_, ?_⟩⟩
      · simp only [V2.add, V2.sub, V2.scale]; ext <;> simp only <;> ring
      · generalize dist M c.tc q = δ at d
        rw [d]
        simp only [V2.add, V2.sub, V2.scale, V2.dot, V2.lengthSq] at *
        linear_combination (δ - (c.radius + seg.radius)) * u
    · rw [if_neg (fun h' => hc (hcaps.2 h'))]
      exact ⟨by simp [hc], fun h' => absurd rfl h'⟩
  · rw [if_neg h]
    exact ⟨by simp [hi, hiff, h], fun h' => absurd hi h'⟩

/-- **C44.** No code sets the tangents, so in every program the end caps are on: the collision is exactly the overlap. -/
theorem C44_no_tangents {M : Mth K} (hM : M.Lawful) (c : Circle K) (seg : Segment K) (rot : V2 K) (info : Info K)
    (hi : info.contacts = []) (hr : 0 ≤ c.radius + seg.radius) (hab : seg.ta ≠ seg.tb) (htn : seg.tn.lengthSq = 1)
    (ha : seg.aTangent = V2.zero) (hb : seg.bTangent = V2.zero) :
    (circleToSegment M c seg rot info).contacts ≠ [] ↔ ∃ x, OnSegment seg.ta seg.tb x ∧ dist M c.tc x < c.radius + seg.radius := by
  obtain ⟨q, δ, n, hq, hδ, hm, -, -, -, hiff, -⟩ := C44_circle_segment hM c seg rot info hi hr hab htn
  have hcaps : CapsOn seg rot q n := by
    unfold CapsOn
    rw [ha, hb]
    simp [V2.rotate, V2.zero, V2.dot]
  rw [hiff]
  constructor
  · rintro ⟨h, -⟩; exact ⟨q, hq, by rw [← hδ]; exact h⟩
  · rintro ⟨x, hx, h⟩; exact ⟨(hm.2 x hx).trans_lt h, hcaps⟩

/-- Discs at (0,0) and (3,0) of radii 1 and 5/2: depth one half. A disc of radius 1 above a segment of radius 1/2. -/
example :
    circleToCircle toyMth (⟨⟨0, 0⟩, ⟨0, 0⟩, 1⟩ : Circle ℚ) ⟨⟨3, 0⟩, ⟨3, 0⟩, 5/2⟩ ⟨false, 0, V2.zero, []⟩ =
      ⟨false, 0, ⟨1, 0⟩, [⟨⟨1, 0⟩, ⟨1/2, 0⟩, 0⟩]⟩ ∧
    circleToSegment toyMth (⟨⟨0, 1⟩, ⟨0, 1⟩, 1⟩ : Circle ℚ) (segAt toyMth ⟨-1, 0⟩ ⟨1, 0⟩ (1/2)) ⟨1, 0⟩ ⟨false, 0, V2.zero, []⟩ =
      ⟨false, 0, ⟨0, -1⟩, [⟨⟨0, 0⟩, ⟨0, 1/2⟩, 0⟩]⟩ ∧
    (segAt toyMth (⟨-1, 0⟩ : V2 ℚ) ⟨1, 0⟩ (1/2)).tn.lengthSq = 1 := by
  decide +kernel

/-! ## C48 -/

/-- The circle and the polygon of a pair are without rounding of the polygon. -/
def Spec.PlainPair (a b : Cls K) : Prop :=
  match a, b with
  | .circle c, .poly p => p.radius = 0 ∧ 0 ≤ c.radius ∧ corners b ≠ []
  | .circle c, .circle c2 => 0 ≤ c.radius + c2.radius
  | .circle c, .segment s => 0 ≤ c.radius + s.radius ∧ s.ta ≠ s.tb ∧ s.tn.lengthSq = 1
  | _, _ => True

theorem contactAt_le (n : V2 K) (e1 e2 : Edge K) (u1 u2 : K) (h : BitVec 64) : ∀ c ∈ contactAt n e1 e2 u1 u2 h, (c.p2.sub c.p1).dot n ≤ 0 := by
  intro c hc
  unfold contactAt at hc
  dsimp only at hc
  split at hc
  · rename_i hle
    rw [List.mem_singleton.1 hc]; exact hle
  · simp at hc

theorem contactPoints_le (tiny : K) (e1 e2 : Edge K) (pts : Closest K) (info : Info K) (hi : info.contacts = []) :
    ∀ c ∈ (contactPoints tiny e1 e2 pts info).contacts, (c.p2.sub c.p1).dot (contactPoints tiny e1 e2 pts info).n ≤ 0 := by
  unfold contactPoints
  split
  · simp [hi]
  · dsimp only
    intro c hc
    rcases List.mem_append.1 hc with hc | hc
    · exact contactAt_le _ _ _ _ _ _ c hc
    · exact contactAt_le _ _ _ _ _ _ c hc

/-- All contacts found by the table of narrow-phase functions overlap along the normal. -/
theorem collideSorted_le {M : Mth K} (hM : M.Lawful) (inf tiny : K) (a b : CShape K) (info info' : Info K) (hi : info.contacts = [])
    (hp : PlainPair a.cls b.cls) (h : collideSorted M inf tiny a b info = some info') :
    ∀ c ∈ info'.contacts, (c.p2.sub c.p1).dot info'.n ≤ 0 := by
  unfold collideSorted at h
  split at h
  · rename_i c1 c2 e1 e2
    rw [e1, e2] at hp
    have := C44_circles hM c1 c2 info hi hp
    obtain rfl := Option.some.inj h
    intro c hc
    have hd := this.1.1 (List.ne_nil_of_mem hc)
    obtain ⟨n, p1, p2, hn, hcs, -, -, -, -, hdep⟩ := this.2 hd
    rw [hcs] at hc
    rw [List.mem_singleton.1 hc, hn]
    simp only
    rw [hdep]; linarith
  · rename_i c1 s e1 e2
    rw [e1, e2] at hp
    obtain ⟨hr, hab, htn⟩ := hp
    obtain ⟨q, δ, n, -, -, -, -, -, -, hiff, hform⟩ := C44_circle_segment hM c1 s b.rot info hi hr hab htn
    obtain rfl := Option.some.inj h
    intro c hc
    obtain ⟨p1, p2, hn, hcs, -, -, hdep⟩ := hform (List.ne_nil_of_mem hc)
    have hd := (hiff.1 (List.ne_nil_of_mem hc)).1
    rw [hcs] at hc
    rw [List.mem_singleton.1 hc, hn]
    simp only
    rw [hdep]; linarith
  · obtain rfl := Option.some.inj h
    unfold segmentToSegment
    dsimp only
    split
    · simp [hi]
    · split
      · exact contactPoints_le _ _ _ _ _ hi
      · simp [hi]
  · rename_i c1 p e1 e2
    rw [e1, e2] at hp
    obtain ⟨hr0, hc0, hcorn⟩ := hp
    obtain rfl := Option.some.inj h
    have hpts := C45_points hM inf ⟨a.cls, b.cls, a.bb, b.bb⟩ ⟨by rw [e1]; simp [corners], by rw [e2]; exact hcorn⟩ info.id
    unfold circleToPoly
    dsimp only
    generalize (gjk M inf ⟨a.cls, b.cls, a.bb, b.bb⟩ info.id).1 = pts at hpts
    obtain ⟨-, -, hd, hn⟩ := hpts
    split
    · rename_i hle
      intro c hc
      rw [List.mem_singleton.1 hc]
      simp only [hr0] at *
      rcases hn with hn | ⟨hn, hd0⟩
      · simp only [V2.add, V2.sub, V2.scale, V2.dot, V2.lengthSq] at *
        nlinarith
      · rw [hn]; simp [V2.dot, V2.zero]
    · simp [hi]
  · obtain rfl := Option.some.inj h
    unfold segmentToPoly
    dsimp only
    split
    · exact contactPoints_le _ _ _ _ _ hi
    · simp [hi]
  · obtain rfl := Option.some.inj h
    unfold polyToPoly
    dsimp only
    split
    · exact contactPoints_le _ _ _ _ _ hi
    · simp [hi]
  · simp at h

/-- **C48 (partial).** With the arguments in the order circle, segment, polygon, and no rounded polygon against a circle, all the
distances reported by `ShapesCollideInfo` are at most zero. What is missing is false: see `C48_swapped` and `C48_rounded`. -/
theorem C48_sorted_partial {M : Mth K} (hM : M.Lawful) (inf tiny : K) (a b : CShape K) (ho : a.cls.order ≤ b.cls.order)
    (hp : PlainPair a.cls b.cls) (set : PointSet K) (h : shapesCollideInfo M inf tiny a b = some set) :
    ∀ p ∈ set.points, p.distance ≤ 0 := by
  unfold shapesCollideInfo collide at h
  rw [if_neg (not_lt.2 ho)] at h
  obtain ⟨info, hi, rfl⟩ := Option.map_eq_some_iff.1 h
  have hle := collideSorted_le hM inf tiny a b _ info rfl hp hi
  have hsw : info.swapped = false := by
    have : ∀ (x : Info K), x.swapped = false → ∀ y, collideSorted M inf tiny a b x = some y → y.swapped = false := by
      intro x hx y hy
      unfold collideSorted at hy
      split at hy <;> first
        | (simp at hy; done)
        | (obtain rfl := Option.some.inj hy
           first | unfold circleToCircle | unfold circleToSegment | unfold segmentToSegment | unfold circleToPoly | unfold segmentToPoly | unfold polyToPoly
           dsimp only
           repeat' split
           all_goals first | exact hx | (unfold contactPoints; split <;> exact hx))
    exact this _ rfl _ hi
  intro p hp'
  dsimp only at hp'
  obtain ⟨c, hc, rfl⟩ := List.mem_map.1 hp'
  simp only [hsw, Bool.false_eq_true, if_false]
  exact hle c hc

theorem collideSorted_swapped (M : Mth K) (inf tiny : K) (a b : CShape K) (id : Nat) (n : V2 K) (cs : List (Pushed K)) (s s' : Bool) :
    collideSorted M inf tiny a b ⟨s, id, n, cs⟩ = (collideSorted M inf tiny a b ⟨s', id, n, cs⟩).map fun i => { i with swapped := s } := by
  unfold collideSorted
  split <;> first
    | rfl
    | (simp only [Option.map_some, Option.some.injEq]
       first | unfold circleToCircle | unfold circleToSegment | unfold segmentToSegment | unfold circleToPoly | unfold segmentToPoly | unfold polyToPoly
       dsimp only
       repeat' split
       all_goals first | rfl | (unfold contactPoints; split <;> rfl))

theorem collideSorted_keeps (M : Mth K) (inf tiny : K) (a b : CShape K) (id : Nat) (n : V2 K) (cs : List (Pushed K)) (s : Bool) (y : Info K)
    (h : collideSorted M inf tiny a b ⟨s, id, n, cs⟩ = some y) : y.swapped = s := by
  rw [collideSorted_swapped M inf tiny a b id n cs s s] at h
  obtain ⟨i, -, rfl⟩ := Option.map_eq_some_iff.1 h
  rfl

/-- **C48 (violated).** Called with the shapes the other way round, `ShapesCollideInfo` reports exactly the negated distances: positive
for overlapping shapes. The points and the normal are exchanged as they should be. -/
theorem C48_swapped (M : Mth K) (inf tiny : K) (a b : CShape K) (ho : b.cls.order < a.cls.order) (set : PointSet K)
    (h : shapesCollideInfo M inf tiny b a = some set) :
    shapesCollideInfo M inf tiny a b =
      some ⟨set.normal.neg, set.points.map fun p => ⟨p.pointB, p.pointA, -p.distance⟩⟩ := by
  unfold shapesCollideInfo collide at h ⊢
  rw [if_pos ho]
  rw [if_neg (not_lt.2 (le_of_lt ho))] at h
  obtain ⟨info, hi, rfl⟩ := Option.map_eq_some_iff.1 h
  have hk := collideSorted_keeps M inf tiny b a _ _ _ _ _ hi
  rw [collideSorted_swapped M inf tiny b a 0 V2.zero [] true false, hi]
  simp only [Option.map_some, hk, Bool.false_eq_true, if_false, if_true, List.map_map, Option.some.injEq, PointSet.mk.injEq, true_and]
  apply List.map_congr_left
  intro c _
  simp only [Function.comp, V2.dot, V2.sub, V2.neg]
  congr 1
  ring

/-- **C48 (violated).** A circle against a polygon with a rounding radius: the reported distance is the distance of the skeletons
plus the radius of the polygon less that of the circle; it is positive for overlapping shapes as soon as `rc - rp < d`. -/
theorem C48_rounded {M : Mth K} (hM : M.Lawful) (inf tiny : K) (a b : CShape K) (c : Circle K) (p : Poly K) (ha : a.cls = .circle c)
    (hb : b.cls = .poly p) (hcorn : p.world ≠ []) (pts : Closest K) (hg : (gjk M inf ⟨a.cls, b.cls, a.bb, b.bb⟩ 0).1 = pts)
    (hn : pts.n ≠ V2.zero) (hd : pts.d ≤ c.radius + p.radius) :
    ∃ set, shapesCollideInfo M inf tiny a b = some set ∧ set.points.map (·.distance) = [pts.d + p.radius - c.radius] := by
  have hpts := C45_points hM inf ⟨a.cls, b.cls, a.bb, b.bb⟩ ⟨by rw [ha]; simp [corners], by rw [hb]; simpa [corners] using hcorn⟩ 0
  rw [hg] at hpts
  obtain ⟨-, -, hdd, hnn⟩ := hpts
  have hu : pts.n.lengthSq = 1 := hnn.resolve_right fun h => hn h.1
  have hsorted : ∀ i, i.id = 0 → collideSorted M inf tiny a b i = some (circleToPoly M inf a b c p i) := by
    intro i _; unfold collideSorted; rw [ha, hb]
  unfold shapesCollideInfo collide
  rw [if_neg (by rw [ha, hb]; simp [Cls.order]), hsorted _ rfl]
  refine ⟨_, rfl, ?_⟩
  unfold circleToPoly
  dsimp only
  rw [hg, if_pos hd]
  simp only [List.map_cons, List.map_nil, Bool.false_eq_true, if_false, List.cons.injEq, and_true]
  simp only [V2.add, V2.sub, V2.scale, V2.dot, V2.lengthSq] at *
  linear_combination (p.radius - c.radius) * hu + hdd

/-- A disc of radius 1 at (0,1), overlapping the segment from (-1,0) to (1,0) of radius 1/2. -/
def exCDisc : CShape ℚ := ⟨.circle ⟨⟨0, 1⟩, ⟨0, 1⟩, 1⟩, ⟨-1, 0, 1, 2⟩, 1, ⟨1, 0⟩⟩
def exCBar : CShape ℚ := ⟨.segment (segAt toyMth ⟨-1, 0⟩ ⟨1, 0⟩ (1/2)), ⟨-3/2, -1/2, 3/2, 1/2⟩, 2, ⟨1, 0⟩⟩
/-- The unit square rounded by 1/4, and a disc of radius 1/2 whose centre is 5/8 from the square: they overlap by 1/8. -/
def exRound : CShape ℚ := ⟨.poly exSquarePoly, ⟨-1/4, -1/4, 5/4, 5/4⟩, 3, ⟨1, 0⟩⟩
def exPebble : CShape ℚ := ⟨.circle ⟨⟨13/8, 1/2⟩, ⟨13/8, 1/2⟩, 1/2⟩, ⟨9/8, 0, 17/8, 1⟩, 4, ⟨1, 0⟩⟩

/-- The three answers: overlap reported as -1/2, as +1/2 when swapped, and as +3/8 instead of -1/8 against the rounded square. -/
theorem C48_witness :
    (shapesCollideInfo gridMth 100000 (1/1000) exCDisc exCBar).map (fun s => s.points.map (·.distance)) = some [-1/2] ∧
    (shapesCollideInfo gridMth 100000 (1/1000) exCBar exCDisc).map (fun s => s.points.map (·.distance)) = some [1/2] ∧
    (shapesCollideInfo gridMth 100000 (1/1000) exPebble exRound).map (fun s => s.points.map (·.distance)) = some [3/8] := by
  decide +kernel

/-! ## C49 -/

/-- `ShapeQuery` tests the pair and finds contacts. -/
def Spec.Hits (M : Mth K) (inf tiny : K) (a b : FShape K) : Prop :=
  a.filter.reject b.filter = false ∧ a.ident ≠ b.ident ∧
    ∃ set, shapesCollideInfo M inf tiny a.toCShape b.toCShape = some set ∧ set.points ≠ []

theorem visit_eq (M : Mth K) (inf tiny : K) (a b : FShape K) (any : Bool) :
    (Hits M inf tiny a b → shapeQueryVisit M inf tiny a any b = !(a.sensor || b.sensor)) ∧
    (¬ Hits M inf tiny a b → shapeQueryVisit M inf tiny a any b = any) := by
  unfold Hits shapeQueryVisit
  by_cases h1 : a.filter.reject b.filter = true
  · simp [h1]
  · by_cases h2 : a.ident = b.ident
    · simp [h2]
    · have h1' : a.filter.reject b.filter = false := by simpa using h1
      have hb : (a.filter.reject b.filter || a.ident == b.ident) = false := by simp [h1', h2]
      rw [hb]
      simp only [Bool.false_eq_true, if_false]
      cases hs : shapesCollideInfo M inf tiny a.toCShape b.toCShape with
      | none => simp
      | some set =>
        by_cases h3 : set.points = []
        · simp [h3, h1', h2]
        · have : set.points.length > 0 := List.length_pos_iff.2 h3
          simp [h3, h1', h2, this]

/-- **C49.** The answer is decided by the last shape found overlapping: true if neither it nor the argument is a sensor. -/
theorem C49_last (M : Mth K) (inf tiny : K) (a : FShape K) (dyn stat : List (FShape K)) :
    ((∀ b ∈ dyn ++ stat, ¬ Hits M inf tiny a b) → shapeQuery M inf tiny a dyn stat = false) ∧
    (∀ pre b post, dyn ++ stat = pre ++ b :: post → Hits M inf tiny a b → (∀ x ∈ post, ¬ Hits M inf tiny a x) →
      shapeQuery M inf tiny a dyn stat = !(a.sensor || b.sensor)) := by
  have hfold : shapeQuery M inf tiny a dyn stat = (dyn ++ stat).foldl (shapeQueryVisit M inf tiny a) false := by
    unfold shapeQuery; rw [List.foldl_append]
  have hskip : ∀ (l : List (FShape K)) (any : Bool), (∀ b ∈ l, ¬ Hits M inf tiny a b) → l.foldl (shapeQueryVisit M inf tiny a) any = any := by
    intro l
    induction l with
    | nil => intro any _; rfl
    | cons b l ih =>
      intro any h
      rw [List.foldl_cons, (visit_eq M inf tiny a b any).2 (h b (by simp))]
      exact ih any fun x hx => h x (by simp [hx])
  refine ⟨fun h => by rw [hfold]; exact hskip _ _ h, fun pre b post e hb hpost => ?_⟩
  rw [hfold, e, List.foldl_append, List.foldl_cons, (visit_eq M inf tiny a b _).1 hb]
  exact hskip _ _ hpost

/-- **C49 (partial).** When neither the argument nor any shape found overlapping is a sensor, the answer is true exactly when some accepted
shape overlaps, and does not depend on the order. What is missing is false: `C49_order`. -/
theorem C49_solid_partial (M : Mth K) (inf tiny : K) (a : FShape K) (dyn stat : List (FShape K)) (ha : a.sensor = false)
    (hs : ∀ b ∈ dyn ++ stat, Hits M inf tiny a b → b.sensor = false) :
    shapeQuery M inf tiny a dyn stat = true ↔ ∃ b ∈ dyn ++ stat, Hits M inf tiny a b := by
  classical
  have key : ∀ l : List (FShape K), (∃ b ∈ l, Hits M inf tiny a b) →
      ∃ pre b post, l = pre ++ b :: post ∧ Hits M inf tiny a b ∧ ∀ x ∈ post, ¬ Hits M inf tiny a x := by
    intro l
    induction l with
    | nil => rintro ⟨b, hb, -⟩; simp at hb
    | cons x l ih =>
      intro h
      by_cases hl : ∃ b ∈ l, Hits M inf tiny a b
      · obtain ⟨pre, b, post, e, h1, h2⟩ := ih hl
        exact ⟨x :: pre, b, post, by rw [e]; rfl, h1, h2⟩
      · obtain ⟨b, hb, hh⟩ := h
        rcases List.mem_cons.1 hb with rfl | hb
        · exact ⟨[], b, l, rfl, hh, fun y hy hc => hl ⟨y, hy, hc⟩⟩
        · exact absurd ⟨b, hb, hh⟩ hl
  constructor
  · intro h
    by_contra hcon
    have := (C49_last M inf tiny a dyn stat).1 fun b hb hh => hcon ⟨b, hb, hh⟩
    rw [this] at h
    simp at h
  · intro h
    obtain ⟨pre, b, post, e, h1, h2⟩ := key _ h
    rw [(C49_last M inf tiny a dyn stat).2 pre b post e h1 h2, ha, hs b (by rw [e]; simp) h1]
    rfl

/-- **C49 (violated).** A solid argument overlapping a solid shape and a sensor: the answer is false or true according to which of
the two the index happens to report last. -/
theorem C49_order (M : Mth K) (inf tiny : K) (a x y : FShape K) (ha : a.sensor = false) (hx : Hits M inf tiny a x) (hy : Hits M inf tiny a y)
    (sx : x.sensor = false) (sy : y.sensor = true) (l : List (FShape K)) :
    shapeQuery M inf tiny a (l ++ [x, y]) [] = false ∧ shapeQuery M inf tiny a (l ++ [y, x]) [] = true := by
  constructor
  · rw [(C49_last M inf tiny a (l ++ [x, y]) []).2 (l ++ [x]) y [] (by simp) hy (by simp), sy]; simp
  · rw [(C49_last M inf tiny a (l ++ [y, x]) []).2 (l ++ [y]) x [] (by simp) hx (by simp), sx, ha]; rfl

def exCArg : FShape ℚ := { exCDisc with ident := 1, filter := ShapeFilter.all, sensor := false }
def exCSolid : FShape ℚ := { exCBar with ident := 2, filter := ShapeFilter.all, sensor := false }
def exCSensor : FShape ℚ := { exCBar with ident := 3, filter := ShapeFilter.all, sensor := true }

example : Hits gridMth 100000 (1/1000) exCArg exCSolid ∧ Hits gridMth 100000 (1/1000) exCArg exCSensor := by
  refine ⟨⟨by decide +kernel, by decide +kernel, ?_⟩, ⟨by decide +kernel, by decide +kernel, ?_⟩⟩ <;>
  · cases h : shapesCollideInfo gridMth 100000 (1/1000) exCDisc exCBar with
    | none => exact absurd h (by decide +kernel)
    | some s =>
      refine ⟨s, h, ?_⟩
      rintro e
      have : (shapesCollideInfo gridMth 100000 (1/1000) exCDisc exCBar).map (·.points) = some [] := by rw [h, Option.map_some, e]
      exact absurd this (by decide +kernel)

example : shapeQuery gridMth 100000 (1/1000) exCArg [exCSolid, exCSensor] [] = false ∧
    shapeQuery gridMth 100000 (1/1000) exCArg [exCSensor, exCSolid] [] = true := by decide +kernel

end Cm
