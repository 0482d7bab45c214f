import Verif.Props.ShapePoly
/-! # C47: ray casts against circles -/
set_option linter.unusedSectionVars false
set_option linter.unusedSimpArgs false

namespace Cm
open Spec
variable {K : Type} [Field K] [LinearOrder K] [IsStrictOrderedRing K]

/-- At fraction `t` of the way from `a` to `b` the moving circle touches the disc of radius `r` (the sum of both radii)
about `c`. -/
def Spec.Touches (c : V2 K) (r : K) (a b : V2 K) (t : K) : Prop := dist2 (At a b t) c ≤ r * r

/-- `t` is the least fraction in [0,1] with the property. -/
def Spec.First (P : K → Prop) (t : K) : Prop := 0 ≤ t ∧ t ≤ 1 ∧ P t ∧ ∀ u, 0 ≤ u → u ≤ 1 → P u → t ≤ u

theorem lerp_at (a b : V2 K) (t : K) : a.lerp b t = At a b t := by
  simp only [V2.lerp, V2.add, V2.scale, At]; ext <;> simp only <;> ring

/-- The quadratic of the circle query: outside start, then the root is the first touch. -/
theorem circle_root {M : Mth K} (hM : M.Lawful) (c : V2 K) (a b : V2 K) (r : K) (hab : a ≠ b) (hout : r * r < dist2 a c) :
    let da := a.sub c
    let db := b.sub c
    let qa := da.dot da - 2 * da.dot db + db.dot db
    let qb := da.dot db - da.dot da
    let det := qb * qb - qa * (da.dot da - r * r)
    let t := (-qb - M.sqrt det) / qa
    0 < qa ∧
    ((det ≥ 0 ∧ qa ≠ 0 ∧ 0 ≤ t ∧ t ≤ 1) → First (Touches c r a b) t ∧ dist2 (At a b t) c = r * r) ∧
    ((∃ u, 0 ≤ u ∧ u ≤ 1 ∧ Touches c r a b u) → (det ≥ 0 ∧ qa ≠ 0 ∧ 0 ≤ t ∧ t ≤ 1)) := by
  intro da db qa qb det t
  have hqa : qa = (b.x - a.x) ^ 2 + (b.y - a.y) ^ 2 := by simp only [qa, da, db, V2.dot, V2.sub]; ring
  have hpos : 0 < qa := by
    rw [hqa]
    rcases (add_nonneg (sq_nonneg (b.x - a.x)) (sq_nonneg (b.y - a.y))).lt_or_eq with h | h
    · exact h
    · exfalso; apply hab
      ext
      · nlinarith [sq_nonneg (b.x - a.x), sq_nonneg (b.y - a.y)]
      · nlinarith [sq_nonneg (b.x - a.x), sq_nonneg (b.y - a.y)]
  have hf : ∀ u, qa * (dist2 (At a b u) c - r * r) = (qa * u + qb) * (qa * u + qb) - det := by
    intro u; simp only [det, qb, hqa, da, db, V2.dot, V2.sub, dist2, At]; ring
  have hc0 : det < qb * qb := by
    have : 0 < qa * (da.dot da - r * r) := by
      apply mul_pos hpos
      have : da.dot da = dist2 a c := by simp only [da, V2.dot, V2.sub, dist2]; ring
      rw [this]; linarith
    simp only [det]; linarith
  have hlow : ∀ u, 0 ≤ u → Touches c r a b u → 0 ≤ det ∧ 0 ≤ t ∧ t ≤ u := by
    intro u hu htu
    have h1 := hf u
    have hle : dist2 (At a b u) c - r * r ≤ 0 := sub_nonpos.2 htu
    have h2 : (qa * u + qb) * (qa * u + qb) ≤ det := by nlinarith
    have hdet : 0 ≤ det := (mul_self_nonneg _).trans h2
    have s0 := hM.sqrt_nonneg det hdet
    have s2 := hM.sqrt_sq det hdet
    set s := M.sqrt det
    have h3 : |qa * u + qb| ≤ s := abs_le_of_sq_le_sq (by nlinarith) s0
    rw [abs_le] at h3
    have hneg : qb < -s := by
      by_contra hcon
      push Not at hcon
      have : 0 ≤ qa * u := mul_nonneg (le_of_lt hpos) hu
      have hb : qb ≤ s := by linarith
      have : qb * qb ≤ s * s := by nlinarith
      linarith
    refine ⟨hdet, div_nonneg (by linarith) (le_of_lt hpos), ?_⟩
    rw [div_le_iff₀ hpos]
    linarith [mul_comm u qa]
  refine ⟨hpos, ?_, ?_⟩
  · rintro ⟨hdet, _, h0, h1⟩
    have hroot : dist2 (At a b t) c = r * r := by
      have h := hf t
      have : qa * t = -qb - M.sqrt det := by simp only [t]; rw [mul_div_cancel₀ _ (ne_of_gt hpos)]
      rw [this] at h
      have s2 := hM.sqrt_sq det hdet
      have : qa * (dist2 (At a b t) c - r * r) = 0 := by rw [h]; linear_combination s2
      rcases mul_eq_zero.1 this with h | h
      · exact absurd h (ne_of_gt hpos)
      · linarith
    exact ⟨⟨h0, h1, le_of_eq hroot, fun u hu _ htu => (hlow u hu htu).2.2⟩, hroot⟩
  · rintro ⟨u, h0, h1, htu⟩
    obtain ⟨a1, a2, a3⟩ := hlow u h0 htu
    exact ⟨a1, ne_of_gt hpos, a2, a3.trans h1⟩

/-- **C47.** From a start outside the sum of the radii: when the moving circle touches anywhere on the way, the query reports
the least fraction, the unit normal from the centre to the moving circle there, and the point of the circle's surface;
otherwise the result passed in is returned unchanged. -/
theorem C47_circle {M : Mth K} (hM : M.Lawful) (c : V2 K) (r1 r2 : K) (a b : V2 K) (info : SegInfo K)
    (hr : 0 < r1 + r2) (hab : a ≠ b) (hout : (r1 + r2) * (r1 + r2) < dist2 a c) :
    let q := circleSegmentQuery M c r1 a b r2 info
    ((∃ u, 0 ≤ u ∧ u ≤ 1 ∧ Touches c (r1 + r2) a b u) →
      q.hit = true ∧ First (Touches c (r1 + r2) a b) q.alpha ∧
      q.normal.x ^ 2 + q.normal.y ^ 2 = 1 ∧
      At a b q.alpha = c.add (q.normal.scale (r1 + r2)) ∧ q.point = c.add (q.normal.scale r1)) ∧
    ((¬ ∃ u, 0 ≤ u ∧ u ≤ 1 ∧ Touches c (r1 + r2) a b u) → q = info) := by
  obtain ⟨hpos, h1, h2⟩ := circle_root hM c a b (r1 + r2) hab hout
  dsimp only at h1 h2 ⊢
  constructor
  · intro h
    have hcond := h2 h
    obtain ⟨hfirst, hroot⟩ := h1 hcond
    unfold circleSegmentQuery
    dsimp only
    rw [if_pos hcond]
    dsimp only
    set t := (-((a.sub c).dot (b.sub c) - (a.sub c).dot (a.sub c)) - M.sqrt (((a.sub c).dot (b.sub c) - (a.sub c).dot (a.sub c)) * ((a.sub c).dot (b.sub c) - (a.sub c).dot (a.sub c)) - ((a.sub c).dot (a.sub c) - 2 * (a.sub c).dot (b.sub c) + (b.sub c).dot (b.sub c)) * ((a.sub c).dot (a.sub c) - (r1 + r2) * (r1 + r2)))) / ((a.sub c).dot (a.sub c) - 2 * (a.sub c).dot (b.sub c) + (b.sub c).dot (b.sub c))
    have hv : (a.sub c).lerp (b.sub c) t = (At a b t).sub c := by
      simp only [V2.lerp, V2.add, V2.scale, V2.sub, At]; ext <;> simp only <;> ring
    rw [hv, lerp_at]
    set v := (At a b t).sub c with hvd
    have hmag : v.mag M = r1 + r2 := by
      rw [hvd, ← dist_eq_mag]; exact dist_eq_of_sq hM _ _ _ (le_of_lt hr) hroot
    have hne : v ≠ V2.zero := by
      intro e; rw [e, mag_zero hM] at hmag; linarith
    have hu : v.unit M = v.scale (1 / v.mag M) := rfl
    have hun := mag_scale_inv hM v hne
    have hr0 := ne_of_gt hr
    have hpt : At a b t = c.add ((v.unit M).scale (r1 + r2)) := by
      rw [hu, hmag]
      have : v.x = (At a b t).x - c.x ∧ v.y = (At a b t).y - c.y := ⟨rfl, rfl⟩
      ext
      · simp only [V2.add, V2.scale, this.1]; field_simp; ring
      · simp only [V2.add, V2.scale, this.2]; field_simp; ring
    refine ⟨rfl, hfirst, by rw [hu]; exact hun, hpt, ?_⟩
    rw [hpt]
    simp only [V2.add, V2.scale, V2.sub]
    ext <;> simp only <;> ring
  · intro h
    unfold circleSegmentQuery
    dsimp only
    rw [if_neg]
    intro hcond
    obtain ⟨⟨h0, h1', ht, _⟩, _⟩ := h1 hcond
    exact h ⟨_, h0, h1', ht⟩

/-- **C47.** A start strictly inside the sum of the radii is never a hit of the circle query. -/
theorem C47_inside {M : Mth K} (hM : M.Lawful) (c : V2 K) (r1 r2 : K) (a b : V2 K) (info : SegInfo K)
    (hin : dist2 a c < (r1 + r2) * (r1 + r2)) : circleSegmentQuery M c r1 a b r2 info = info := by
  unfold circleSegmentQuery
  dsimp only
  rw [if_neg]
  rintro ⟨hdet, hqa, h0, h1⟩
  set da := a.sub c with hda
  set db := b.sub c
  set qa := da.dot da - 2 * da.dot db + db.dot db with hqad
  set qb := da.dot db - da.dot da
  have hq : qa = (b.x - a.x) ^ 2 + (b.y - a.y) ^ 2 := by simp only [hqad, hda, V2.dot, V2.sub, db]; ring
  have hqp : 0 < qa := lt_of_le_of_ne (by rw [hq]; positivity) (Ne.symm hqa)
  have hdd : da.dot da = dist2 a c := by simp only [hda, V2.dot, V2.sub, dist2]; ring
  have hlt : qb * qb < qb * qb - qa * (da.dot da - (r1 + r2) * (r1 + r2)) := by rw [hdd]; nlinarith
  set det := qb * qb - qa * (da.dot da - (r1 + r2) * (r1 + r2))
  have s0 := hM.sqrt_nonneg det hdet
  have s2 := hM.sqrt_sq det hdet
  have hnum : 0 ≤ -qb - M.sqrt det := by
    by_contra hcon
    push Not at hcon
    exact absurd h0 (not_le.2 (div_neg_of_neg_of_pos hcon hqp))
  nlinarith

/-- **C47.** `Shape.SegmentQuery` on a circle, for every start: it hits exactly when the moving circle touches somewhere on
the way, and the fraction is the least one. -/
theorem C47_shape {M : Mth K} (hM : M.Lawful) (inf eps : K) (c : Circle K) (a b : V2 K) (r2 : K)
    (hr : 0 < c.radius + r2) (hab : a ≠ b) :
    let q := (Cls.circle c).segmentQuery M inf eps a b r2
    (q.hit = true ↔ ∃ u, 0 ≤ u ∧ u ≤ 1 ∧ Touches c.tc (c.radius + r2) a b u) ∧
    (q.hit = true → First (Touches c.tc (c.radius + r2) a b) q.alpha) := by
  have hat : At a b 0 = a := by simp [At]
  have hd : ((Cls.circle c).pointQuery M inf eps a).dist = dist M a c.tc - c.radius := by
    simp only [Cls.pointQuery, Circle.pointQuery, dist_eq_mag]
  by_cases h : ((Cls.circle c).pointQuery M inf eps a).dist ≤ r2
  · have ht : Touches c.tc (c.radius + r2) a b 0 := by
      unfold Touches; rw [hat, ← dist_le_iff hM _ _ _ (le_of_lt hr)]; linarith
    simp only [Cls.segmentQuery, if_pos h]
    exact ⟨⟨fun _ => ⟨0, le_refl _, zero_le_one, ht⟩, fun _ => trivial⟩, fun _ => ⟨le_refl _, zero_le_one, ht, fun u hu _ _ => hu⟩⟩
  · have hout : (c.radius + r2) * (c.radius + r2) < dist2 a c.tc := by
      by_contra hcon
      push Not at hcon
      rw [← dist_le_iff hM _ _ _ (le_of_lt hr)] at hcon
      apply h; rw [hd]; linarith
    simp only [Cls.segmentQuery, if_neg h, Cls.segmentQueryRaw]
    obtain ⟨h1, h2⟩ := C47_circle hM c.tc c.radius r2 a b (SegInfo.blank b) hr hab hout
    by_cases hex : ∃ u, 0 ≤ u ∧ u ≤ 1 ∧ Touches c.tc (c.radius + r2) a b u
    · obtain ⟨k1, k2, _⟩ := h1 hex
      exact ⟨⟨fun _ => hex, fun _ => k1⟩, fun _ => k2⟩
    · rw [h2 hex]
      simp [SegInfo.blank, hex]

/-- **C47 (start inside).** From a start inside a circle `Shape.SegmentQuery` reports fraction 0 but the point at the far end,
and a normal that points inwards, against the outward normal. -/
theorem C47_start_inside {M : Mth K} (hM : M.Lawful) (inf eps : K) (c : Circle K) (a b : V2 K) (r2 : K)
    (hr : 0 < c.radius) (hr2 : 0 ≤ r2) (hne : a ≠ c.tc) (hin : dist2 a c.tc < c.radius * c.radius) :
    let q := (Cls.circle c).segmentQuery M inf eps a b r2
    q.hit = true ∧ q.alpha = 0 ∧ q.point = b ∧ q.normal.dot (a.sub c.tc) < 0 := by
  have hlt : dist M a c.tc < c.radius := by
    by_contra hcon
    push Not at hcon
    have := mul_self_le_mul_self (le_of_lt hr) hcon
    rw [dist_sq hM] at this
    linarith
  have hpos : 0 < dist M a c.tc := lt_of_le_of_ne (dist_nonneg hM _ _) (fun e => hne ((dist_self_iff hM _ _).1 e.symm))
  have hd : ((Cls.circle c).pointQuery M inf eps a).dist = dist M a c.tc - c.radius := by
    simp only [Cls.pointQuery, Circle.pointQuery, dist_eq_mag]
  have hle : ((Cls.circle c).pointQuery M inf eps a).dist ≤ r2 := by rw [hd]; linarith
  simp only [Cls.segmentQuery, if_pos hle]
  refine ⟨trivial, trivial, rfl, ?_⟩
  set δ := (a.sub c.tc).mag M with hδ
  have hδp : 0 < δ := by rw [hδ, ← dist_eq_mag]; exact hpos
  have hδr : δ < c.radius := by rw [hδ, ← dist_eq_mag]; exact hlt
  have hv : a.sub ((Cls.circle c).pointQuery M inf eps a).point = (a.sub c.tc).scale (1 - c.radius / δ) := by
    simp only [Cls.pointQuery, Circle.pointQuery, ← hδ]
    simp only [V2.sub, V2.add, V2.scale]
    ext <;> simp only <;> ring
  rw [hv]
  have hneg : 1 - c.radius / δ < 0 := by
    have : 1 < c.radius / δ := (one_lt_div hδp).2 hδr
    linarith
  have hlen : 0 < (a.sub c.tc).lengthSq := by rw [← mag_sq hM]; exact mul_pos hδp hδp
  set w := (a.sub c.tc).scale (1 - c.radius / δ) with hw
  have hwne : w ≠ V2.zero := by
    intro e
    have : w.lengthSq = (a.sub c.tc).lengthSq * ((1 - c.radius / δ) * (1 - c.radius / δ)) := by
      simp only [hw, V2.lengthSq, V2.dot, V2.scale]; ring
    have hz : (V2.zero : V2 K).lengthSq = 0 := by simp [V2.zero, V2.lengthSq, V2.dot]
    rw [e, hz] at this
    have h4 := mul_pos hlen (mul_pos_of_neg_of_neg hneg hneg)
    rw [← this] at h4
    exact lt_irrefl _ h4
  have hwm : 0 < w.mag M := lt_of_le_of_ne (mag_nonneg hM _) (fun e => hwne (mag_eq_zero hM _ e.symm))
  have : (w.unit M).dot (a.sub c.tc) = (1 / w.mag M) * ((1 - c.radius / δ) * (a.sub c.tc).lengthSq) := by
    have : w.unit M = w.scale (1 / w.mag M) := rfl
    rw [this]
    simp only [V2.scale, V2.dot, V2.lengthSq, hw]; ring
  rw [this]
  exact mul_neg_of_pos_of_neg (one_div_pos.2 hwm) (mul_neg_of_neg_of_pos hneg hlen)

/-- A ray from the left meets the unit circle (moving radius 1/2) first at fraction 1/4. -/
example : (0 : ℚ) < 1 + 1/2 ∧ ((1 + 1/2) * (1 + 1/2) : ℚ) < dist2 ⟨-3, 0⟩ ⟨0, 0⟩ ∧
    circleSegmentQuery gridMth (⟨0, 0⟩ : V2 ℚ) 1 ⟨-3, 0⟩ ⟨3, 0⟩ (1/2) (SegInfo.blank ⟨3, 0⟩) = ⟨true, ⟨-1, 0⟩, ⟨-1, 0⟩, 1/4⟩ ∧
    circleSegmentQuery gridMth (⟨0, 0⟩ : V2 ℚ) 1 ⟨-3, 2⟩ ⟨3, 2⟩ (1/2) (SegInfo.blank ⟨3, 2⟩) = SegInfo.blank ⟨3, 2⟩ := by
  refine ⟨by norm_num, by norm_num [dist2], by decide +kernel, by decide +kernel⟩

example : (Cls.circle (⟨⟨0, 0⟩, ⟨0, 0⟩, 2⟩ : Circle ℚ)).segmentQuery gridMth 1000 0 ⟨1, 0⟩ ⟨5, 0⟩ 0 = ⟨true, ⟨5, 0⟩, ⟨-1, 0⟩, 0⟩ := by
  decide +kernel

end Cm
