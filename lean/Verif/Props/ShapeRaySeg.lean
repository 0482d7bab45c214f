import Verif.Props.ShapeRay
/-! # C79: ray casts against segment shapes -/
set_option linter.unusedSectionVars false
set_option linter.unusedSimpArgs false

namespace Cm
open Spec
variable {K : Type} [Field K] [LinearOrder K] [IsStrictOrderedRing K]

/-- At fraction `t` of the way from `a` to `b` the moving circle is within `r` (the sum of both radii) of the segment from `p` to `q`. -/
def Spec.TouchesCapsule (p q : V2 K) (r : K) (a b : V2 K) (t : K) : Prop := ∃ x, OnSegment p q x ∧ dist2 (At a b t) x ≤ r * r

/-! ## In coordinates along (`w`) and across (`h`) the segment -/

/-- The moving point is within `r` of the segment from 0 to `m` on the `w` axis. -/
def Spec.Near (m r w0 w1 h0 h1 : K) (t : K) : Prop :=
  ∃ l, 0 ≤ l ∧ l ≤ 1 ∧ (w0 + t * w1 - l * m) ^ 2 + (h0 + t * h1) ^ 2 ≤ r * r

theorem near_height {m r w0 w1 h0 h1 t : K} (hr : 0 ≤ r) (h : Near m r w0 w1 h0 h1 t) : -r ≤ h0 + t * h1 ∧ h0 + t * h1 ≤ r := by
  obtain ⟨l, _, _, h⟩ := h
  have := (abs_le_of_sq_le _ _ r hr h).2
  exact abs_le.1 this

/-- The side facing the start is reached at `t0`, between its ends. -/
theorem near_face {m r w0 w1 h0 h1 : K} (hr : 0 ≤ r) (hm : m ≠ 0) (hh : r < h0)
    (hG : (w1 * (r - h0) + h1 * w0) * (w1 * (r - h0) + h1 * (w0 - m)) ≤ 0) (hx : (h0 - r) * (h0 + h1 - r) < 0) :
    First (Near m r w0 w1 h0 h1) ((h0 - r) / (-h1)) := by
  have hpos : 0 < h0 - r := by linarith
  have h2 : h0 + h1 - r < 0 := by
    by_contra hcon; push Not at hcon
    exact absurd hx (not_lt.2 (mul_nonneg (le_of_lt hpos) hcon))
  have hh1 : 0 < -h1 := by linarith
  set t := (h0 - r) / (-h1) with ht
  have htm : t * h1 = r - h0 := by
    have : t * (-h1) = h0 - r := div_mul_cancel₀ _ (ne_of_gt hh1)
    linarith
  refine ⟨div_nonneg (le_of_lt hpos) (le_of_lt hh1), (div_le_one hh1).2 (by linarith), ?_, ?_⟩
  · set w := w0 + t * w1 with hw
    have e1 : w1 * (r - h0) + h1 * w0 = h1 * w := by rw [hw, ← htm]; ring
    have e2 : w1 * (r - h0) + h1 * (w0 - m) = h1 * (w - m) := by rw [hw, ← htm]; ring
    rw [e1, e2] at hG
    have hsq : 0 < h1 * h1 := by nlinarith
    have hww : w * (w - m) ≤ 0 := by
      by_contra hcon; push Not at hcon
      have := mul_pos hsq hcon
      nlinarith
    have hmm : 0 < m * m := mul_self_pos.2 hm
    have hl : (w / m) * m = w := div_mul_cancel₀ _ hm
    have hll : (w / m) * (w / m - 1) ≤ 0 := by
      have : (m * m) * ((w / m) * (w / m - 1)) = w * (w - m) := by
        have : (m * m) * ((w / m) * (w / m - 1)) = (w / m * m) * (w / m * m - m) := by ring
        rw [this, hl]
      by_contra hcon; push Not at hcon
      have := mul_pos hmm hcon
      linarith
    refine ⟨w / m, ?_, ?_, ?_⟩
    · by_contra hcon; push Not at hcon
      nlinarith
    · by_contra hcon; push Not at hcon
      nlinarith
    · rw [hl, htm]
      have : (w - w) ^ 2 + (h0 + (r - h0)) ^ 2 = r * r := by ring
      rw [this]
  · intro u hu _ hn
    have := (near_height hr hn).2
    rw [ht, div_le_iff₀ hh1]
    linarith

/-- The side facing the start is not reached before the end. -/
theorem near_none {m r w0 w1 h0 h1 : K} (hr : 0 ≤ r) (hh : r < h0) (hx : 0 ≤ (h0 - r) * (h0 + h1 - r)) (t : K) (_ht0 : 0 ≤ t) (ht1 : t < 1)
    (h : Near m r w0 w1 h0 h1 t) : False := by
  have h2 : 0 ≤ h0 + h1 - r := by
    by_contra hcon; push Not at hcon
    have := mul_neg_of_pos_of_neg (sub_pos.2 hh) hcon
    linarith
  have := (near_height hr h).2
  nlinarith

/-- When the line misses the side facing the start, an end is touched no later. -/
theorem near_cap {m r w0 w1 h0 h1 : K} (hr : 0 ≤ r) (hm : m ≠ 0) (hh : r < h0)
    (hG : 0 < (w1 * (r - h0) + h1 * w0) * (w1 * (r - h0) + h1 * (w0 - m))) (t : K) (ht0 : 0 ≤ t) (h : Near m r w0 w1 h0 h1 t) :
    ∃ u, 0 ≤ u ∧ u ≤ t ∧ ((w0 + u * w1) ^ 2 + (h0 + u * h1) ^ 2 ≤ r * r ∨ (w0 + u * w1 - m) ^ 2 + (h0 + u * h1) ^ 2 ≤ r * r) := by
  obtain ⟨hlo, hhi⟩ := near_height hr h
  obtain ⟨l, l0, l1, hl⟩ := h
  have hh1 : h1 < 0 := by
    by_contra hcon; push Not at hcon
    nlinarith
  have hh1' : 0 < -h1 := by linarith
  set t0 := (h0 - r) / (-h1) with ht0d
  have htm : t0 * h1 = r - h0 := by
    have : t0 * (-h1) = h0 - r := div_mul_cancel₀ _ (ne_of_gt hh1')
    linarith
  have ht00 : 0 ≤ t0 := div_nonneg (by linarith) (le_of_lt hh1')
  have ht0t : t0 ≤ t := by rw [ht0d, div_le_iff₀ hh1']; linarith
  -- lateral position as a fraction of the segment
  obtain ⟨lam, hlam⟩ : ∃ lam : K → K, ∀ u, lam u * m = w0 + u * w1 := ⟨fun u => (w0 + u * w1) / m, fun u => div_mul_cancel₀ _ hm⟩
  have hmm : 0 < m * m := mul_self_pos.2 hm
  have hG' : 0 < lam t0 * (lam t0 - 1) := by
    have e1 : w1 * (r - h0) + h1 * w0 = h1 * (lam t0 * m) := by rw [hlam, ← htm]; ring
    have e2 : w1 * (r - h0) + h1 * (w0 - m) = h1 * (lam t0 * m - m) := by rw [hlam, ← htm]; ring
    rw [e1, e2] at hG
    have e3 : h1 * (lam t0 * m) * (h1 * (lam t0 * m - m)) = (h1 * h1 * (m * m)) * (lam t0 * (lam t0 - 1)) := by ring
    rw [e3] at hG
    have : 0 < h1 * h1 * (m * m) := mul_pos (by nlinarith) hmm
    exact (mul_pos_iff_of_pos_left this).1 hG
  rw [← hlam] at hl
  have hl' : (lam t - l) ^ 2 * (m * m) + (h0 + t * h1) ^ 2 ≤ r * r := by
    have : (lam t * m - l * m) ^ 2 = (lam t - l) ^ 2 * (m * m) := by ring
    rw [← this]; exact hl
  have cross : ∀ k : K, (lam t0 < k ∧ k ≤ lam t) ∨ (k < lam t0 ∧ lam t ≤ k) →
      ∃ u, 0 ≤ u ∧ u ≤ t ∧ lam u = k ∧ (h0 + u * h1) ^ 2 ≤ r * r := by
    intro k hk
    have hne : lam t - lam t0 ≠ 0 := by
      rcases hk with ⟨h1, h2⟩ | ⟨h1, h2⟩
      · exact ne_of_gt (by linarith)
      · exact ne_of_lt (by linarith)
    set f := (k - lam t0) / (lam t - lam t0) with hf
    have hfm : f * (lam t - lam t0) = k - lam t0 := div_mul_cancel₀ _ hne
    have hf0 : 0 ≤ f := by
      rcases hk with ⟨h1, h2⟩ | ⟨h1, h2⟩
      · exact div_nonneg (by linarith) (by linarith)
      · exact div_nonneg_of_nonpos (by linarith) (by linarith)
    have hf1 : f ≤ 1 := by
      rcases hk with ⟨h1, h2⟩ | ⟨h1, h2⟩
      · rw [hf, div_le_one (by linarith)]; linarith
      · rw [hf, div_le_one_of_neg (by linarith)]; linarith
    refine ⟨t0 + f * (t - t0), add_nonneg ht00 (mul_nonneg hf0 (by linarith)), ?_, ?_, ?_⟩
    · have := mul_le_mul_of_nonneg_right hf1 (by linarith : (0 : K) ≤ t - t0)
      linarith
    · have : lam (t0 + f * (t - t0)) = lam t0 + f * (lam t - lam t0) := by
        apply mul_right_cancel₀ hm
        have : (lam t0 + f * (lam t - lam t0)) * m = lam t0 * m + f * (lam t * m - lam t0 * m) := by ring
        rw [this, hlam, hlam, hlam]; ring
      rw [this, hfm]; ring
    · have e : h0 + (t0 + f * (t - t0)) * h1 = (1 - f) * r + f * (h0 + t * h1) := by
        have : h0 + (t0 + f * (t - t0)) * h1 = (1 - f) * (h0 + t0 * h1) + f * (h0 + t * h1) := by ring
        rw [this, htm]; ring
      rw [e]
      have b0 := mul_le_mul_of_nonneg_left hhi hf0
      have b0' := mul_le_mul_of_nonneg_left hlo hf0
      have b1 : (1 - f) * r + f * (h0 + t * h1) ≤ r := by linarith
      have b2 : -r ≤ (1 - f) * r + f * (h0 + t * h1) := by
        have := mul_nonneg (by linarith : (0 : K) ≤ 1 - f) hr
        linarith
      rw [sq]
      exact abs_le_iff_mul_self_le.1 (by rw [abs_of_nonneg hr, abs_le]; exact ⟨b2, b1⟩)
  rcases lt_or_ge (lam t) 0 with hneg | hnn
  · refine ⟨t, ht0, le_refl _, Or.inl ?_⟩
    rw [← hlam]
    have : (lam t * m) ^ 2 = lam t ^ 2 * (m * m) := by ring
    rw [this]
    have : lam t ^ 2 ≤ (lam t - l) ^ 2 := by nlinarith
    nlinarith [mul_le_mul_of_nonneg_right this (le_of_lt hmm)]
  · rcases lt_or_ge 1 (lam t) with hgt | hle
    · refine ⟨t, ht0, le_refl _, Or.inr ?_⟩
      rw [← hlam]
      have : (lam t * m - m) ^ 2 = (lam t - 1) ^ 2 * (m * m) := by ring
      rw [this]
      have : (lam t - 1) ^ 2 ≤ (lam t - l) ^ 2 := by nlinarith
      nlinarith [mul_le_mul_of_nonneg_right this (le_of_lt hmm)]
    · have hside : lam t0 < 0 ∨ 1 < lam t0 := by
        rcases lt_or_ge (lam t0) 0 with h | h
        · exact Or.inl h
        · right
          by_contra hcon; push Not at hcon
          nlinarith
      rcases hside with h | h
      · obtain ⟨u, u0, u1, e, hu⟩ := cross 0 (Or.inl ⟨h, hnn⟩)
        refine ⟨u, u0, u1, Or.inl ?_⟩
        have : w0 + u * w1 = 0 := by rw [← hlam, e, zero_mul]
        rw [this]; linarith
      · obtain ⟨u, u0, u1, e, hu⟩ := cross 1 (Or.inr ⟨h, hle⟩)
        refine ⟨u, u0, u1, Or.inr ?_⟩
        have : w0 + u * w1 = m := by rw [← hlam, e, one_mul]
        rw [this]
        have : (m - m) ^ 2 + (h0 + u * h1) ^ 2 = (h0 + u * h1) ^ 2 := by ring
        rw [this]; exact hu

/-! ## Translation -/

/-- Squared distances in the coordinates given by a unit normal `N`. -/
theorem coord_dist2 (N o x y : V2 K) (hN : N.x ^ 2 + N.y ^ 2 = 1) :
    dist2 x y = ((x.sub o).dot N.perp - (y.sub o).dot N.perp) ^ 2 + ((x.sub o).dot N - (y.sub o).dot N) ^ 2 := by
  simp only [dist2, V2.sub, V2.dot, V2.perp]
  linear_combination (-((x.x - y.x) ^ 2 + (x.y - y.y) ^ 2)) * hN

theorem capsule_iff_near (N p q a b : V2 K) (r : K) (hN : N.x ^ 2 + N.y ^ 2 = 1) (hperp : N.dot (q.sub p) = 0) (t : K) :
    TouchesCapsule p q r a b t ↔ Near ((q.sub p).dot N.perp) r ((a.sub p).dot N.perp) ((b.sub a).dot N.perp)
      ((a.sub p).dot N) ((b.sub a).dot N) t := by
  have hz : (q.sub p).dot N = 0 := by rw [← hperp]; simp only [V2.dot]; ring
  have key : ∀ l, dist2 (At a b t) (At p q l) =
      ((a.sub p).dot N.perp + t * (b.sub a).dot N.perp - l * (q.sub p).dot N.perp) ^ 2 + ((a.sub p).dot N + t * (b.sub a).dot N) ^ 2 := by
    intro l
    rw [coord_dist2 N p _ _ hN]
    have e1 : ((At a b t).sub p).dot N.perp - ((At p q l).sub p).dot N.perp =
        (a.sub p).dot N.perp + t * (b.sub a).dot N.perp - l * (q.sub p).dot N.perp := by
      simp only [V2.dot, V2.sub, At]; ring
    have e2 : ((At a b t).sub p).dot N - ((At p q l).sub p).dot N = (a.sub p).dot N + t * (b.sub a).dot N - l * (q.sub p).dot N := by
      simp only [V2.dot, V2.sub, At]; ring
    rw [e1, e2, hz, mul_zero, sub_zero]
  constructor
  · rintro ⟨x, ⟨l, l0, l1, rfl⟩, h⟩
    exact ⟨l, l0, l1, by rw [← key]; exact h⟩
  · rintro ⟨l, l0, l1, h⟩
    exact ⟨At p q l, ⟨l, l0, l1, rfl⟩, by rw [key]; exact h⟩

/-- What one circle query of an end gives. -/
theorem cap_one {M : Mth K} (hM : M.Lawful) (p : V2 K) (r1 r2 : K) (a b : V2 K)
    (hr : 0 < r1 + r2) (hab : a ≠ b) (hout : (r1 + r2) * (r1 + r2) < dist2 a p) :
    let i := circleSegmentQuery M p r1 a b r2 (SegInfo.blank b)
    i.alpha ≤ 1 ∧ (i.hit = true → First (Touches p (r1 + r2) a b) i.alpha ∧ i.normal.x ^ 2 + i.normal.y ^ 2 = 1) ∧
    (∀ u, 0 ≤ u → u ≤ 1 → Touches p (r1 + r2) a b u → i.hit = true ∧ i.alpha ≤ u) ∧ (i.alpha < 1 → i.hit = true) := by
  have h12 := C47_circle hM p r1 r2 a b (SegInfo.blank b) hr hab hout
  dsimp only at h12 ⊢
  generalize circleSegmentQuery M p r1 a b r2 (SegInfo.blank b) = i at h12 ⊢
  obtain ⟨h1, h2⟩ := h12
  by_cases hex : ∃ u, 0 ≤ u ∧ u ≤ 1 ∧ Touches p (r1 + r2) a b u
  · obtain ⟨k1, k2, k3, _⟩ := h1 hex
    exact ⟨k2.2.1, fun _ => ⟨k2, k3⟩, fun u u0 u1 hu => ⟨k1, k2.2.2.2 u u0 u1 hu⟩, fun _ => k1⟩
  · have := h2 hex
    subst this
    exact ⟨le_refl _, fun h => by simp [SegInfo.blank] at h, fun u u0 u1 hu => (hex ⟨u, u0, u1, hu⟩).elim,
      fun h => by simp [SegInfo.blank] at h⟩

/-- The better of the two ends, when every touch is preceded by a touch of an end. -/
theorem cap_two (p p' a b : V2 K) (r : K) (C : K → Prop) (hsub : ∀ u, Touches p r a b u ∨ Touches p' r a b u → C u)
    (hcap : ∀ t, 0 ≤ t → C t → ∃ u, 0 ≤ u ∧ u ≤ t ∧ (Touches p r a b u ∨ Touches p' r a b u)) (i1 i2 : SegInfo K)
    (A : i1.alpha ≤ 1 ∧ (i1.hit = true → First (Touches p r a b) i1.alpha ∧ i1.normal.x ^ 2 + i1.normal.y ^ 2 = 1) ∧
      (∀ u, 0 ≤ u → u ≤ 1 → Touches p r a b u → i1.hit = true ∧ i1.alpha ≤ u) ∧ (i1.alpha < 1 → i1.hit = true))
    (B : i2.alpha ≤ 1 ∧ (i2.hit = true → First (Touches p' r a b) i2.alpha ∧ i2.normal.x ^ 2 + i2.normal.y ^ 2 = 1) ∧
      (∀ u, 0 ≤ u → u ≤ 1 → Touches p' r a b u → i2.hit = true ∧ i2.alpha ≤ u) ∧ (i2.alpha < 1 → i2.hit = true)) :
    let q := if i1.alpha < i2.alpha then i1 else i2
    (q.hit = true → First C q.alpha ∧ q.normal.x ^ 2 + q.normal.y ^ 2 = 1) ∧ ((∃ t, 0 ≤ t ∧ t < 1 ∧ C t) → q.hit = true) := by
  obtain ⟨a1, a2, a3, a4⟩ := A
  obtain ⟨b1, b2, b3, b4⟩ := B
  intro q
  have hq : q = if i1.alpha < i2.alpha then i1 else i2 := rfl
  clear_value q
  by_cases hlt : i1.alpha < i2.alpha
  · rw [if_pos hlt] at hq
    subst hq
    refine ⟨fun hit => ?_, fun _ => a4 (lt_of_lt_of_le hlt b1)⟩
    obtain ⟨⟨f0, f1, f2, f3⟩, hnn⟩ := a2 hit
    refine ⟨⟨f0, f1, hsub _ (Or.inl f2), ?_⟩, hnn⟩
    intro t t0 t1 htt
    obtain ⟨u, u0, u1, hu⟩ := hcap t t0 htt
    rcases hu with h | h
    · exact ((a3 u u0 (u1.trans t1) h).2).trans u1
    · exact (le_of_lt hlt).trans (((b3 u u0 (u1.trans t1) h).2).trans u1)
  · rw [if_neg hlt] at hq
    subst hq
    refine ⟨fun hit => ?_, ?_⟩
    · obtain ⟨⟨f0, f1, f2, f3⟩, hnn⟩ := b2 hit
      refine ⟨⟨f0, f1, hsub _ (Or.inr f2), ?_⟩, hnn⟩
      intro t t0 t1 htt
      obtain ⟨u, u0, u1, hu⟩ := hcap t t0 htt
      rcases hu with h | h
      · exact (not_lt.1 hlt).trans (((a3 u u0 (u1.trans t1) h).2).trans u1)
      · exact ((b3 u u0 (u1.trans t1) h).2).trans u1
    · rintro ⟨t, t0, t1, ht⟩
      obtain ⟨u, u0, u1, hu⟩ := hcap t t0 ht
      have hu1 := lt_of_le_of_lt u1 t1
      rcases hu with h | h
      · exact b4 (lt_of_le_of_lt ((not_lt.1 hlt).trans (a3 u u0 (le_of_lt hu1) h).2) hu1)
      · exact (b3 u u0 (le_of_lt hu1) h).1

/-- With radius zero a touch lies on the segment, so the line does not miss it. -/
theorem near_zero {m w0 w1 h0 h1 u : K} (h : Near m 0 w0 w1 h0 h1 u) :
    (w1 * (0 - h0) + h1 * w0) * (w1 * (0 - h0) + h1 * (w0 - m)) ≤ 0 := by
  obtain ⟨l, l0, l1, hl⟩ := h
  rw [mul_zero] at hl
  have z1 : w0 + u * w1 - l * m = 0 := by
    have := sq_nonneg (h0 + u * h1)
    have h5 : (w0 + u * w1 - l * m) ^ 2 = 0 := le_antisymm (by linarith) (sq_nonneg _)
    exact pow_eq_zero_iff (two_ne_zero) |>.1 h5
  have z2 : h0 + u * h1 = 0 := by
    have := sq_nonneg (w0 + u * w1 - l * m)
    have h5 : (h0 + u * h1) ^ 2 = 0 := le_antisymm (by linarith) (sq_nonneg _)
    exact pow_eq_zero_iff (two_ne_zero) |>.1 h5
  have e0 : h0 = -(u * h1) := by linarith
  have e1 : w0 = l * m - u * w1 := by linarith
  rw [e0, e1]
  have : (w1 * (0 - -(u * h1)) + h1 * (l * m - u * w1)) * (w1 * (0 - -(u * h1)) + h1 * (l * m - u * w1 - m)) = -((h1 * m) * (h1 * m) * (l * (1 - l))) := by ring
  rw [this]
  have := mul_nonneg (mul_self_nonneg (h1 * m)) (mul_nonneg l0 (by linarith : (0 : K) ≤ 1 - l))
  linarith

set_option maxHeartbeats 1000000 in
/-- **C79 (partial: starts beside the segment).** Ray casts against a segment shape whose start is farther from the line of the
segment than the sum of the radii: a hit reports the least fraction at which the moving circle touches, with a unit normal;
and every touch before the end of the way makes a hit. Missing: starts level with the segment, see `C79_level`. -/
theorem C79_beside_partial {M : Mth K} (hM : M.Lawful) (s : Segment K) (a b : V2 K) (r2 : K) (hr : 0 ≤ s.radius + r2)
    (hab : a ≠ b) (hne : s.ta ≠ s.tb) (hn : s.tn.x ^ 2 + s.tn.y ^ 2 = 1) (hperp : s.tn.dot (s.tb.sub s.ta) = 0)
    (hout : s.radius + r2 < |(s.ta.sub a).dot s.tn|) :
    let q := s.segmentQuery M a b r2 (SegInfo.blank b)
    (q.hit = true → First (TouchesCapsule s.ta s.tb (s.radius + r2) a b) q.alpha ∧ q.normal.x ^ 2 + q.normal.y ^ 2 = 1) ∧
    ((∃ t, 0 ≤ t ∧ t < 1 ∧ TouchesCapsule s.ta s.tb (s.radius + r2) a b t) → q.hit = true) := by
  set r := s.radius + r2 with hrd
  set d := (s.ta.sub a).dot s.tn with hd
  set N : V2 K := if d > 0 then s.tn.neg else s.tn with hNd
  have hN : N.x ^ 2 + N.y ^ 2 = 1 := by
    rw [hNd]; split
    · simp only [V2.neg]; linear_combination hn
    · exact hn
  have hNp : N.dot (s.tb.sub s.ta) = 0 := by
    rw [hNd]; split
    · have : s.tn.neg.dot (s.tb.sub s.ta) = -(s.tn.dot (s.tb.sub s.ta)) := by simp only [V2.neg, V2.dot]; ring
      rw [this, hperp, neg_zero]
    · exact hperp
  set h0 := (a.sub s.ta).dot N with hh0
  set h1 := (b.sub a).dot N with hh1
  set w0 := (a.sub s.ta).dot N.perp with hw0
  set w1 := (b.sub a).dot N.perp with hw1
  set m := (s.tb.sub s.ta).dot N.perp with hm
  have hh0a : h0 = |d| := by
    rw [hh0, hNd]
    by_cases hdp : d > 0
    · rw [if_pos hdp, abs_of_pos hdp, hd]; simp only [V2.dot, V2.sub, V2.neg]; ring
    · rw [if_neg hdp, abs_of_nonpos (not_lt.1 hdp), hd]; simp only [V2.dot, V2.sub]; ring
  have hhr : r < h0 := by rw [hh0a]; exact hout
  have hm0 : m ≠ 0 := by
    intro e
    apply hne
    have h3 := coord_dist2 N s.ta s.tb s.ta hN
    have hz : (s.tb.sub s.ta).dot N = 0 := by rw [← hNp]; simp only [V2.dot]; ring
    rw [← hm, e, hz] at h3
    have h4 : dist2 s.tb s.ta = 0 := by rw [h3]; simp [V2.sub, V2.dot]
    simp only [dist2] at h4
    ext
    · nlinarith [sq_nonneg (s.tb.x - s.ta.x), sq_nonneg (s.tb.y - s.ta.y)]
    · nlinarith [sq_nonneg (s.tb.x - s.ta.x), sq_nonneg (s.tb.y - s.ta.y)]
  have hiff : ∀ t, TouchesCapsule s.ta s.tb r a b t ↔ Near m r w0 w1 h0 h1 t := capsule_iff_near N s.ta s.tb a b r hN hNp
  have hFirst : ∀ t, First (TouchesCapsule s.ta s.tb r a b) t ↔ First (Near m r w0 w1 h0 h1) t := by
    intro t; simp only [First, hiff]
  -- the two cross products
  have hz : (s.tb.sub s.ta).dot N = 0 := by rw [← hNp]; simp only [V2.dot]; ring
  have c1 : (b.sub a).cross (s.ta.add ((N.scale r).sub a)) = -(w1 * (r - h0) + h1 * w0) := by
    simp only [hw1, hh0, hh1, hw0, V2.cross, V2.sub, V2.add, V2.scale, V2.dot, V2.perp]
    linear_combination ((b.y - a.y) * (s.ta.x - a.x) - (b.x - a.x) * (s.ta.y - a.y)) * hN
  have c2 : (b.sub a).cross (s.tb.add ((N.scale r).sub a)) = -(w1 * (r - h0) + h1 * (w0 - m)) := by
    simp only [V2.sub, V2.dot] at hz
    simp only [hw1, hh0, hh1, hw0, hm, V2.cross, V2.sub, V2.add, V2.scale, V2.dot, V2.perp]
    linear_combination ((b.y - a.y) * (s.tb.x - a.x) - (b.x - a.x) * (s.tb.y - a.y)) * hN + ((b.x - a.x) * N.y - (b.y - a.y) * N.x) * hz
  intro q
  have hq : q = s.segmentQuery M a b r2 (SegInfo.blank b) := rfl
  clear_value q
  unfold Segment.segmentQuery at hq
  simp only [← hrd, ← hd, ← hNd, c1, c2, neg_mul_neg] at hq
  -- the offsets
  have had : (-(if d > 0 then d - r else d + r)) * ((b.sub a).dot s.tn - (if d > 0 then d - r else d + r)) = (h0 - r) * (h0 + h1 - r) ∧
      (h1 ≠ 0 → (-(if d > 0 then d - r else d + r)) / (-(if d > 0 then d - r else d + r) - ((b.sub a).dot s.tn - (if d > 0 then d - r else d + r))) = (h0 - r) / (-h1)) := by
    by_cases hdp : d > 0
    · have e1 : h0 = d := by rw [hh0a, abs_of_pos hdp]
      have e2 : (b.sub a).dot s.tn = -h1 := by rw [hh1, hNd, if_pos hdp]; simp only [V2.dot, V2.sub, V2.neg]; ring
      simp only [if_pos hdp, e1, e2]
      refine ⟨by ring, fun hne => ?_⟩
      have : -(d - r) - (-h1 - (d - r)) = h1 := by ring
      rw [this, neg_div, div_neg]
    · have e1 : h0 = -d := by rw [hh0a, abs_of_nonpos (not_lt.1 hdp)]
      have e2 : (b.sub a).dot s.tn = h1 := by rw [hh1, hNd, if_neg hdp]
      simp only [if_neg hdp, e1, e2]
      refine ⟨by ring, fun hne => ?_⟩
      have e3 : -(d + r) - (h1 - (d + r)) = -h1 := by ring
      have e4 : -(d + r) = -d - r := by ring
      rw [e3, e4]
  have hr0 : r ≠ 0 → 0 < r := fun h => lt_of_le_of_ne hr (Ne.symm h)
  have hdisc : ∀ p, (p = s.ta ∨ p = s.tb) → r * r < dist2 a p := by
    intro p hp
    rw [coord_dist2 N s.ta a p hN]
    have : (p.sub s.ta).dot N = 0 := by
      rcases hp with rfl | rfl
      · simp [V2.sub, V2.dot]
      · exact hz
    rw [this, sub_zero, ← hh0]
    nlinarith [sq_nonneg ((a.sub s.ta).dot N.perp - (p.sub s.ta).dot N.perp)]
  have hcapsub : ∀ p u, (p = s.ta ∨ p = s.tb) → Touches p r a b u → TouchesCapsule s.ta s.tb r a b u := by
    intro p u hp hu
    rcases hp with rfl | rfl
    · exact ⟨_, ⟨0, le_refl _, zero_le_one, by simp [At]⟩, hu⟩
    · exact ⟨_, ⟨1, zero_le_one, le_refl _, by simp [At]⟩, hu⟩
  by_cases hG : (w1 * (r - h0) + h1 * w0) * (w1 * (r - h0) + h1 * (w0 - m)) ≤ 0
  · rw [if_pos hG] at hq
    rw [had.1] at hq
    by_cases hx : (h0 - r) * (h0 + h1 - r) < 0
    · rw [if_pos hx] at hq
      have hne1 : h1 ≠ 0 := by
        intro e
        rw [e, add_zero] at hx
        exact absurd hx (not_lt.2 (mul_self_nonneg _))
      rw [had.2 hne1] at hq
      subst hq
      refine ⟨fun _ => ⟨?_, hN⟩, fun _ => rfl⟩
      rw [hFirst]
      exact near_face hr hm0 hhr hG hx
    · rw [if_neg hx] at hq
      subst hq
      refine ⟨fun h => by simp [SegInfo.blank] at h, ?_⟩
      rintro ⟨t, t0, t1, ht⟩
      exact (near_none hr hhr (not_lt.1 hx) t t0 t1 ((hiff t).1 ht)).elim
  · rw [if_neg hG] at hq
    have hcap : ∀ t, 0 ≤ t → TouchesCapsule s.ta s.tb r a b t → ∃ u, 0 ≤ u ∧ u ≤ t ∧ (Touches s.ta r a b u ∨ Touches s.tb r a b u) := by
      intro t ht htt
      obtain ⟨u, u0, u1, hu⟩ := near_cap hr hm0 hhr (not_le.1 hG) t ht ((hiff t).1 htt)
      refine ⟨u, u0, u1, ?_⟩
      have k1 : dist2 (At a b u) s.ta = (w0 + u * w1) ^ 2 + (h0 + u * h1) ^ 2 := by
        rw [coord_dist2 N s.ta _ _ hN]
        simp only [hw0, hw1, hh0, hh1, V2.dot, V2.sub, At, V2.perp]; ring
      have k2 : dist2 (At a b u) s.tb = (w0 + u * w1 - m) ^ 2 + (h0 + u * h1) ^ 2 := by
        rw [coord_dist2 N s.ta _ _ hN, hz]
        simp only [hw0, hw1, hh0, hh1, hm, V2.dot, V2.sub, At, V2.perp]; ring
      simp only [Touches, k1, k2]
      exact hu
    by_cases hrz : r = 0
    · rw [if_neg (by simpa using hrz)] at hq
      subst hq
      refine ⟨fun h => by simp [SegInfo.blank] at h, ?_⟩
      rintro ⟨t, t0, t1, ht⟩
      exact (hG (by have := near_zero (by rw [← hrz]; exact (hiff t).1 ht); rw [hrz]; exact this)).elim
    · rw [if_pos (by simpa using hrz)] at hq
      have hrp := hr0 hrz
      rw [hq]
      exact cap_two s.ta s.tb a b r _ (fun u hu => hu.elim (hcapsub _ u (Or.inl rfl)) (hcapsub _ u (Or.inr rfl))) hcap _ _
        (cap_one hM s.ta s.radius r2 a b hrp hab (hdisc _ (Or.inl rfl))) (cap_one hM s.tb s.radius r2 a b hrp hab (hdisc _ (Or.inr rfl)))

/-- The capsule of the examples: from (0,0) to (10,0) with radius 1. -/
def exCapsule : Segment ℚ := ⟨⟨0, 0⟩, ⟨10, 0⟩, ⟨0, -1⟩, ⟨0, 0⟩, ⟨10, 0⟩, ⟨0, -1⟩, 1, ⟨0, 0⟩, ⟨0, 0⟩⟩

example : exCapsule.radius + 0 < |(exCapsule.ta.sub (⟨3, 5⟩ : V2 ℚ)).dot exCapsule.tn| ∧
    exCapsule.tn.dot (exCapsule.tb.sub exCapsule.ta) = 0 ∧ exCapsule.tn.x ^ 2 + exCapsule.tn.y ^ 2 = 1 ∧
    exCapsule.segmentQuery gridMth ⟨3, 5⟩ ⟨3, 0⟩ 0 (SegInfo.blank ⟨3, 0⟩) = ⟨true, ⟨3, 1⟩, ⟨0, 1⟩, 4/5⟩ := by
  decide +kernel

/-- **C79 (violated).** A ray that starts level with the segment, outside of it, enters through the end and leaves through the
side: the query reports where it leaves (fraction 1/3) although the moving point is already inside at fraction 3/20, both through
`Segment.SegmentQuery` and through `Shape.SegmentQuery`. -/
theorem C79_level : let q := exCapsule.segmentQuery gridMth ⟨-2, 1/2⟩ ⟨8, 2⟩ 0 (SegInfo.blank ⟨8, 2⟩)
    q.hit = true ∧ q.alpha = 1/3 ∧ (Cls.segment exCapsule).segmentQuery gridMth 1000 0 ⟨-2, 1/2⟩ ⟨8, 2⟩ 0 = q ∧
    TouchesCapsule exCapsule.ta exCapsule.tb exCapsule.radius ⟨-2, 1/2⟩ ⟨8, 2⟩ (3/20) ∧
    ¬ First (TouchesCapsule exCapsule.ta exCapsule.tb exCapsule.radius ⟨-2, 1/2⟩ ⟨8, 2⟩) q.alpha := by
  have h1 : (exCapsule.segmentQuery gridMth ⟨-2, 1/2⟩ ⟨8, 2⟩ 0 (SegInfo.blank ⟨8, 2⟩)).alpha = 1/3 := by decide +kernel
  have ht : TouchesCapsule exCapsule.ta exCapsule.tb exCapsule.radius ⟨-2, 1/2⟩ ⟨8, 2⟩ (3/20) :=
    ⟨⟨0, 0⟩, ⟨0, le_refl _, zero_le_one, by simp [At, exCapsule]⟩, by norm_num [dist2, At, exCapsule]⟩
  refine ⟨by decide +kernel, h1, by decide +kernel, ht, ?_⟩
  intro hf
  rw [h1] at hf
  have := hf.2.2.2 (3/20) (by norm_num) (by norm_num) ht
  norm_num at this

end Cm
