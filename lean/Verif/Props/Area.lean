import Verif.Props.ShapeMass
import Verif.Props.ShapePoly
import Verif.Model.ShapeMade
import Mathlib.MeasureTheory.Measure.Lebesgue.VolumeOfBalls
import Mathlib.Analysis.Convex.Combination
import Mathlib.Analysis.Normed.Group.Pointwise
/-! # C103: areas are those of the regions the shapes cover

The plane is `ℝ × ℝ` with Lebesgue measure. -/
set_option linter.unusedSectionVars false
set_option linter.unusedSimpArgs false
set_option linter.unusedVariables false

namespace Cm
open Spec MeasureTheory Set
open scoped Pointwise

/-- A point of the plane as a vector. -/
def Spec.vecOf (q : ℝ × ℝ) : V2 ℝ := ⟨q.1, q.2⟩
/-- A vector as a point of the plane. -/
def Spec.ptOf (v : V2 ℝ) : ℝ × ℝ := (v.x, v.y)

/-- The points with the property cover the finite area `a`. -/
def Spec.HasArea (P : V2 ℝ → Prop) (a : ℝ) : Prop := 0 ≤ a ∧ volume {q : ℝ × ℝ | P (vecOf q)} = ENNReal.ofReal a

namespace Area

/-- The disc of radius `r` about the origin. -/
def disc (r : ℝ) : Set (ℝ × ℝ) := {q | q.1 ^ 2 + q.2 ^ 2 ≤ r ^ 2}

theorem disc_closed (r : ℝ) : IsClosed (disc r) := isClosed_le (by fun_prop) (by fun_prop)

theorem disc_bounded (r : ℝ) : disc r ⊆ Icc (-|r|) |r| ×ˢ Icc (-|r|) |r| := by
  intro q hq
  simp only [disc, mem_ofPred_eq] at hq
  have h1 : |q.1| ≤ |r| := sq_le_sq.1 (by nlinarith [sq_nonneg q.2])
  have h2 : |q.2| ≤ |r| := sq_le_sq.1 (by nlinarith [sq_nonneg q.1])
  exact ⟨abs_le.1 h1, abs_le.1 h2⟩

theorem disc_compact (r : ℝ) : IsCompact (disc r) :=
  (isCompact_Icc.prod isCompact_Icc).of_isClosed_subset (disc_closed r) (disc_bounded r)

theorem disc_volume (r : ℝ) (hr : 0 ≤ r) : volume (disc r) = ENNReal.ofReal (Real.pi * r ^ 2) := by
  have h := Complex.volume_preserving_equiv_real_prod.measure_preimage ((disc_closed r).measurableSet.nullMeasurableSet)
  have h2 : (Complex.measurableEquivRealProd ⁻¹' disc r) = Metric.closedBall 0 r := by
    ext z
    simp only [mem_preimage, disc, mem_ofPred_eq, Metric.mem_closedBall, dist_zero_right]
    rw [← sq_le_sq₀ (norm_nonneg z) hr, Complex.sq_norm, Complex.normSq_apply]
    simp [Complex.measurableEquivRealProd_apply, sq]
  rw [← h, h2, Complex.volume_closedBall]
  rw [mul_comm Real.pi, ENNReal.ofReal_mul (by positivity), ENNReal.ofReal_pow hr]
  congr 1
  rw [← ENNReal.ofReal_coe_nnreal]; rfl


/-! ## Sweeping a convex region along a vector -/

/-- The region covered by `S` while moving along `u`. -/
def sweep (S : Set (ℝ × ℝ)) (u : ℝ × ℝ) : Set (ℝ × ℝ) := S + segment ℝ 0 u

theorem mem_sweep {S : Set (ℝ × ℝ)} {u q : ℝ × ℝ} : q ∈ sweep S u ↔ ∃ s ∈ S, ∃ t : ℝ, 0 ≤ t ∧ t ≤ 1 ∧ s + t • u = q := by
  simp only [sweep, mem_add, segment_eq_image, mem_image, mem_Icc]
  constructor
  · rintro ⟨s, hs, _, ⟨t, ⟨h0, h1⟩, rfl⟩, rfl⟩
    exact ⟨s, hs, t, h0, h1, by simp⟩
  · rintro ⟨s, hs, t, h0, h1, rfl⟩
    exact ⟨s, hs, t • u, ⟨t, ⟨h0, h1⟩, by simp⟩, rfl⟩

theorem sweep_compact {S : Set (ℝ × ℝ)} (hS : IsCompact S) (u : ℝ × ℝ) : IsCompact (sweep S u) := by
  refine hS.add ?_
  rw [segment_eq_image]
  exact isCompact_Icc.image (by fun_prop)

theorem sweep_convex {S : Set (ℝ × ℝ)} (hS : Convex ℝ S) (u : ℝ × ℝ) : Convex ℝ (sweep S u) := hS.add (convex_segment _ _)

theorem slice_sweep {A : Set ℝ} (hA : IsCompact A) (hc : Convex ℝ A) (hne : A.Nonempty) (L : ℝ) (hL : 0 ≤ L) :
    volume {x | ∃ s ∈ A, ∃ t : ℝ, 0 ≤ t ∧ t ≤ 1 ∧ s + t * L = x} = volume A + ENNReal.ofReal L := by
  have h := eq_Icc_of_connected_compact ⟨hne, hc.isPreconnected⟩ hA
  obtain ⟨p, q, hpq, rfl⟩ : ∃ p q, p ≤ q ∧ A = Icc p q := by
    refine ⟨_, _, ?_, h⟩
    rw [h] at hne
    exact nonempty_Icc.1 hne
  have : {x | ∃ s ∈ Icc p q, ∃ t : ℝ, 0 ≤ t ∧ t ≤ 1 ∧ s + t * L = x} = Icc p (q + L) := by
    ext x
    simp only [mem_ofPred_eq, mem_Icc]
    constructor
    · rintro ⟨s, ⟨h1, h2⟩, t, h3, h4, rfl⟩
      constructor
      · nlinarith
      · nlinarith
    · rintro ⟨h1, h2⟩
      by_cases hx : x ≤ q
      · exact ⟨x, ⟨h1, hx⟩, 0, le_rfl, by norm_num, by simp⟩
      · have hL' : 0 < L := by linarith
        refine ⟨q, ⟨hpq, le_rfl⟩, (x - q) / L, div_nonneg (by linarith) hL, ?_, ?_⟩
        · rw [div_le_one hL']; linarith
        · field_simp; ring
  rw [this, Real.volume_Icc, Real.volume_Icc, ← ENNReal.ofReal_add (by linarith) hL]
  congr 1; ring

theorem sweep_flat {S : Set (ℝ × ℝ)} (hS : IsCompact S) (hc : Convex ℝ S) (L : ℝ) (hL : 0 ≤ L) :
    volume (sweep S (L, 0)) = volume S + ENNReal.ofReal L * volume (Prod.snd '' S) := by
  have hP : MeasurableSet (Prod.snd '' S : Set ℝ) := (hS.image continuous_snd).isClosed.measurableSet
  rw [Measure.volume_eq_prod, Measure.prod_apply_symm (sweep_compact hS _).isClosed.measurableSet,
    Measure.prod_apply_symm hS.isClosed.measurableSet]
  have hs : ∀ y : ℝ, volume ((fun x => (x, y)) ⁻¹' sweep S (L, 0)) =
      volume ((fun x => (x, y)) ⁻¹' S) + (Prod.snd '' S).indicator (fun _ => ENNReal.ofReal L) y := by
    intro y
    have e : ((fun x => (x, y)) ⁻¹' sweep S (L, 0)) = {x | ∃ s ∈ ((fun x : ℝ => (x, y)) ⁻¹' S), ∃ t : ℝ, 0 ≤ t ∧ t ≤ 1 ∧ s + t * L = x} := by
      ext x
      simp only [mem_preimage, mem_sweep, mem_ofPred_eq]
      constructor
      · rintro ⟨⟨s1, s2⟩, hs, t, h0, h1, h⟩
        simp only [Prod.smul_mk, smul_eq_mul, mul_zero, Prod.mk_add_mk, add_zero, Prod.mk.injEq] at h
        obtain ⟨h, rfl⟩ := h
        exact ⟨s1, hs, t, h0, h1, h⟩
      · rintro ⟨s1, hs, t, h0, h1, h⟩
        exact ⟨(s1, y), hs, t, h0, h1, by simp [h]⟩
    rw [e]
    by_cases hne : ((fun x : ℝ => (x, y)) ⁻¹' S).Nonempty
    · have hy : y ∈ Prod.snd '' S := by obtain ⟨x, hx⟩ := hne; exact ⟨(x, y), hx, rfl⟩
      rw [indicator_of_mem hy]
      refine slice_sweep ?_ ?_ hne L hL
      · have : ((fun x : ℝ => (x, y)) ⁻¹' S) = Prod.fst '' (S ∩ Prod.snd ⁻¹' {y}) := by
          ext x
          simp only [mem_preimage, mem_image, mem_inter_iff, mem_singleton_iff, Prod.exists]
          constructor
          · intro h; exact ⟨x, y, ⟨h, rfl⟩, rfl⟩
          · rintro ⟨a, b, ⟨h, rfl⟩, rfl⟩; exact h
        rw [this]
        exact (hS.inter_right (isClosed_singleton.preimage continuous_snd)).image continuous_fst
      · intro a ha b hb s t hs ht hst
        have := hc ha hb hs ht hst
        simp only [mem_preimage] at *
        convert this using 1
        simp only [Prod.smul_mk, smul_eq_mul, Prod.mk_add_mk, Prod.mk.injEq, true_and]
        rw [← add_mul, hst, one_mul]
    · have hy : y ∉ Prod.snd '' S := by
        rintro ⟨⟨x, y'⟩, hx, rfl⟩; exact hne ⟨x, hx⟩
      rw [indicator_of_notMem hy]
      rw [not_nonempty_iff_eq_empty] at hne
      rw [hne]
      simp
  simp_rw [hs]
  rw [lintegral_add_right _ (measurable_const.indicator hP), lintegral_indicator_const hP]

/-- The vector product with `u`. -/
def crossWith (u : ℝ × ℝ) (q : ℝ × ℝ) : ℝ := u.1 * q.2 - u.2 * q.1

/-- The linear map `q ↦ (u · q, u × q)`. -/
noncomputable def turn (u : ℝ × ℝ) : ℝ × ℝ →ₗ[ℝ] ℝ × ℝ := Matrix.toLin (.finTwoProd ℝ) (.finTwoProd ℝ) !![u.1, u.2; -u.2, u.1]

theorem turn_apply (u q : ℝ × ℝ) : turn u q = (u.1 * q.1 + u.2 * q.2, crossWith u q) := by
  simp [turn, Matrix.toLin_finTwoProd_apply, crossWith]; ring

theorem turn_det (u : ℝ × ℝ) : LinearMap.det (turn u) = u.1 ^ 2 + u.2 ^ 2 := by
  simp only [turn, LinearMap.det_toLin, Matrix.det_fin_two_of]; ring

theorem sweep_volume {S : Set (ℝ × ℝ)} (hS : IsCompact S) (hc : Convex ℝ S) (u : ℝ × ℝ) :
    volume (sweep S u) = volume S + volume (crossWith u '' S) := by
  by_cases hu : u = 0
  · subst hu
    have h1 : sweep S 0 = S := by simp [sweep]
    rcases S.eq_empty_or_nonempty with rfl | hne
    · simp [h1]
    · have h2 : crossWith 0 '' S = {0} := by
        have : crossWith 0 = fun _ => 0 := by ext q; simp [crossWith]
        rw [this, hne.image_const]
      rw [h1, h2]; simp
  · have hpos : 0 < u.1 ^ 2 + u.2 ^ 2 := by
      rcases eq_or_ne u.1 0 with h1 | h1
      · rcases eq_or_ne u.2 0 with h2 | h2
        · exact absurd (Prod.ext h1 h2) hu
        · positivity
      · positivity
    have himg : turn u '' sweep S u = sweep (turn u '' S) (u.1 ^ 2 + u.2 ^ 2, 0) := by
      have hT : turn u u = (u.1 ^ 2 + u.2 ^ 2, 0) := by
        rw [turn_apply]; simp only [crossWith]; ext <;> simp only <;> ring
      rw [← hT]
      simp only [sweep]
      rw [image_add, ← LinearMap.coe_toAffineMap, image_segment]
      simp
    have hS' : IsCompact (turn u '' S) := hS.image (turn u).continuous_of_finiteDimensional
    have hc' : Convex ℝ (turn u '' S) := hc.linear_image _
    have h := sweep_flat hS' hc' (u.1 ^ 2 + u.2 ^ 2) hpos.le
    have hproj : (Prod.snd '' (turn u '' S)) = crossWith u '' S := by
      rw [image_image]
      congr 1
      ext q
      rw [turn_apply]
    rw [← himg, hproj, Measure.addHaar_image_linearMap, Measure.addHaar_image_linearMap, turn_det, abs_of_pos hpos, ← mul_add] at h
    exact (ENNReal.mul_right_inj (by simpa using hpos) ENNReal.ofReal_ne_top).1 h


theorem open_disc_volume (r : ℝ) (hr : 0 ≤ r) : volume {q : ℝ × ℝ | q.1 ^ 2 + q.2 ^ 2 < r ^ 2} = ENNReal.ofReal (Real.pi * r ^ 2) := by
  have hm : IsOpen {q : ℝ × ℝ | q.1 ^ 2 + q.2 ^ 2 < r ^ 2} := isOpen_lt (by fun_prop) (by fun_prop)
  have h := Complex.volume_preserving_equiv_real_prod.measure_preimage (hm.measurableSet.nullMeasurableSet)
  have h2 : (Complex.measurableEquivRealProd ⁻¹' {q : ℝ × ℝ | q.1 ^ 2 + q.2 ^ 2 < r ^ 2}) = Metric.ball 0 r := by
    ext z
    simp only [mem_preimage, mem_ofPred_eq, Metric.mem_ball, dist_zero_right]
    rw [← sq_lt_sq₀ (norm_nonneg z) hr, Complex.sq_norm, Complex.normSq_apply]
    simp [Complex.measurableEquivRealProd_apply, sq]
  rw [← h, h2, Complex.volume_ball]
  rw [mul_comm Real.pi, ENNReal.ofReal_mul (by positivity), ENNReal.ofReal_pow hr]
  congr 1
  rw [← ENNReal.ofReal_coe_nnreal]; rfl

theorem disc_convex (r : ℝ) : Convex ℝ (disc r) := by
  intro p hp q hq s t hs ht hst
  simp only [disc, mem_ofPred_eq, Prod.fst_add, Prod.snd_add, Prod.smul_fst, Prod.smul_snd, smul_eq_mul] at *
  have h : t = 1 - s := by linarith
  subst h
  have h1 : 2 * (p.1 * q.1 + p.2 * q.2) ≤ p.1 ^ 2 + p.2 ^ 2 + (q.1 ^ 2 + q.2 ^ 2) := by nlinarith [sq_nonneg (p.1 - q.1), sq_nonneg (p.2 - q.2)]
  nlinarith [mul_nonneg hs ht, mul_nonneg hs hs, mul_nonneg ht ht]

theorem disc_neg (r : ℝ) : -disc r = disc r := by
  ext q; simp [disc]

/-- The length of a vector. -/
noncomputable def len (u : ℝ × ℝ) : ℝ := Real.sqrt (u.1 ^ 2 + u.2 ^ 2)

theorem len_nonneg (u : ℝ × ℝ) : 0 ≤ len u := Real.sqrt_nonneg _
theorem len_sq (u : ℝ × ℝ) : len u ^ 2 = u.1 ^ 2 + u.2 ^ 2 := Real.sq_sqrt (by positivity)

theorem cross_disc (r : ℝ) (hr : 0 ≤ r) (w : ℝ × ℝ) : volume.real (crossWith w '' disc r) = 2 * r * len w := by
  have h : crossWith w '' disc r = Icc (-(r * len w)) (r * len w) := by
    have hl := len_sq w
    have hl0 := len_nonneg w
    ext x
    simp only [mem_image, mem_Icc]
    constructor
    · rintro ⟨q, hq, rfl⟩
      simp only [disc, mem_ofPred_eq] at hq
      apply abs_le.1
      apply abs_le_of_sq_le_sq _ (by positivity)
      simp only [crossWith]
      calc (w.1 * q.2 - w.2 * q.1) ^ 2 ≤ (w.1 ^ 2 + w.2 ^ 2) * (q.1 ^ 2 + q.2 ^ 2) := by nlinarith [sq_nonneg (w.1 * q.1 + w.2 * q.2)]
        _ ≤ (w.1 ^ 2 + w.2 ^ 2) * r ^ 2 := by gcongr
        _ = (r * len w) ^ 2 := by rw [mul_pow, hl]; ring
    · rintro ⟨h1, h2⟩
      rcases eq_or_lt_of_le hl0 with h0 | h0
      · rw [← h0] at h1 h2
        exact ⟨(0, 0), by simp [disc]; positivity, by simp [crossWith]; linarith⟩
      · refine ⟨(-(w.2 * x) / len w ^ 2, w.1 * x / len w ^ 2), ?_, ?_⟩
        · simp only [disc, mem_ofPred_eq]
          have : (-(w.2 * x) / len w ^ 2) ^ 2 + (w.1 * x / len w ^ 2) ^ 2 = x ^ 2 / len w ^ 2 := by
            rw [div_pow, div_pow, ← add_div, show (-(w.2 * x)) ^ 2 + (w.1 * x) ^ 2 = (w.1 ^ 2 + w.2 ^ 2) * x ^ 2 by ring, ← hl]
            field_simp
          rw [this, div_le_iff₀ (by positivity)]
          nlinarith
        · simp only [crossWith]
          rw [show w.1 * (w.1 * x / len w ^ 2) - w.2 * (-(w.2 * x) / len w ^ 2) = (w.1 ^ 2 + w.2 ^ 2) * x / len w ^ 2 by ring, ← hl]
          field_simp
  rw [h, Real.volume_real_Icc]
  have : 0 ≤ r * len w := mul_nonneg hr (len_nonneg w)
  rw [max_eq_left (by linarith)]; ring

theorem cross_compact {S : Set (ℝ × ℝ)} (hS : IsCompact S) (w : ℝ × ℝ) : IsCompact (crossWith w '' S) :=
  hS.image (by unfold crossWith; fun_prop)

theorem cross_convex {S : Set (ℝ × ℝ)} (hS : Convex ℝ S) (w : ℝ × ℝ) : Convex ℝ (crossWith w '' S) := by
  rintro _ ⟨p, hp, rfl⟩ _ ⟨q, hq, rfl⟩ s t hs ht hst
  refine ⟨_, hS hp hq hs ht hst, ?_⟩
  simp only [crossWith, Prod.fst_add, Prod.snd_add, Prod.smul_fst, Prod.smul_snd, smul_eq_mul]; ring

theorem real_of_eq {α : Type} [MeasurableSpace α] {μ : Measure α} {s : Set α} {x : ℝ} (h : μ s = ENNReal.ofReal x) (hx : 0 ≤ x) : μ.real s = x := by
  rw [Measure.real, h, ENNReal.toReal_ofReal hx]

theorem sweep_real {S : Set (ℝ × ℝ)} (hS : IsCompact S) (hc : Convex ℝ S) (u : ℝ × ℝ) :
    volume.real (sweep S u) = volume.real S + volume.real (crossWith u '' S) := by
  rw [Measure.real, sweep_volume hS hc, ENNReal.toReal_add hS.measure_lt_top.ne (cross_compact hS u).measure_lt_top.ne]; rfl

theorem cross_sweep {S : Set (ℝ × ℝ)} (hS : IsCompact S) (hc : Convex ℝ S) (hne : S.Nonempty) (u w : ℝ × ℝ) :
    volume.real (crossWith w '' sweep S u) = volume.real (crossWith w '' S) + |crossWith w u| := by
  set A := crossWith w '' S with hA
  have hAc : IsCompact A := cross_compact hS w
  have hlin : ∀ (s : ℝ × ℝ) (t : ℝ), crossWith w (s + t • u) = crossWith w s + t * crossWith w u := by
    intro s t
    simp only [crossWith, Prod.fst_add, Prod.snd_add, Prod.smul_fst, Prod.smul_snd, smul_eq_mul]; ring
  have e : crossWith w '' sweep S u = {x | ∃ s ∈ A, ∃ t : ℝ, 0 ≤ t ∧ t ≤ 1 ∧ s + t * crossWith w u = x} := by
    ext x
    simp only [mem_image, mem_sweep, mem_ofPred_eq, hA]
    constructor
    · rintro ⟨_, ⟨s, hs, t, h0, h1, rfl⟩, rfl⟩
      exact ⟨_, ⟨s, hs, rfl⟩, t, h0, h1, (hlin s t).symm⟩
    · rintro ⟨_, ⟨s, hs, rfl⟩, t, h0, h1, rfl⟩
      exact ⟨_, ⟨s, hs, t, h0, h1, rfl⟩, hlin s t⟩
  rcases le_total 0 (crossWith w u) with h | h
  · rw [e, Measure.real, slice_sweep hAc (cross_convex hc w) (hne.image _) _ h, ENNReal.toReal_add hAc.measure_lt_top.ne ENNReal.ofReal_ne_top,
      ENNReal.toReal_ofReal h, abs_of_nonneg h]; rfl
  · have e2 : {x | ∃ s ∈ A, ∃ t : ℝ, 0 ≤ t ∧ t ≤ 1 ∧ s + t * crossWith w u = x} =
        (fun x => x + (-crossWith w u)) ⁻¹' {x | ∃ s ∈ A, ∃ t : ℝ, 0 ≤ t ∧ t ≤ 1 ∧ s + t * (-crossWith w u) = x} := by
      ext x
      simp only [mem_ofPred_eq, mem_preimage]
      constructor
      · rintro ⟨s, hs, t, h0, h1, rfl⟩
        exact ⟨s, hs, 1 - t, by linarith, by linarith, by ring⟩
      · rintro ⟨s, hs, t, h0, h1, hx⟩
        exact ⟨s, hs, 1 - t, by linarith, by linarith, by linarith⟩
    rw [e, e2, Measure.real, measure_preimage_add_right, slice_sweep hAc (cross_convex hc w) (hne.image _) _ (by linarith),
      ENNReal.toReal_add hAc.measure_lt_top.ne ENNReal.ofReal_ne_top, ENNReal.toReal_ofReal (by linarith), abs_of_nonpos h]; rfl

theorem disc_nonempty (r : ℝ) : (disc r).Nonempty := ⟨0, by simp [disc]; positivity⟩

theorem capsule_real (r : ℝ) (hr : 0 ≤ r) (u : ℝ × ℝ) : volume.real (sweep (disc r) u) = Real.pi * r ^ 2 + 2 * r * len u := by
  rw [sweep_real (disc_compact r) (disc_convex r), cross_disc r hr, real_of_eq (disc_volume r hr) (by positivity)]

theorem parallelogram_real (r : ℝ) (hr : 0 ≤ r) (u w : ℝ × ℝ) :
    volume.real (sweep (sweep (disc r) u) w) = Real.pi * r ^ 2 + 2 * r * len u + 2 * r * len w + |crossWith w u| := by
  rw [sweep_real (sweep_compact (disc_compact r) u) (sweep_convex (disc_convex r) u), capsule_real r hr,
    cross_sweep (disc_compact r) (disc_convex r) (disc_nonempty r), cross_disc r hr]; ring

/-! ## Rounding convex regions -/

/-- Rounding respects gluing of convex pieces. -/
theorem round_glue {A B D : Set (ℝ × ℝ)} (hA : IsCompact A) (hB : IsCompact B) (hcA : Convex ℝ A) (hcB : Convex ℝ B) (hcu : Convex ℝ (A ∪ B))
    (hD : IsCompact D) (hcD : Convex ℝ D) :
    volume.real ((A ∪ B) + D) + volume.real ((A ∩ B) + D) = volume.real (A + D) + volume.real (B + D) := by
  have hint : (A ∩ B) + D = (A + D) ∩ (B + D) := by
    apply Subset.antisymm inter_add_subset
    rintro q ⟨⟨a, ha, d, hd, rfl⟩, ⟨b, hb, d', hd', hq⟩⟩
    dsimp only at hq ⊢
    have hseg : segment ℝ a b ⊆ A ∪ B := hcu.segment_subset (Or.inl ha) (Or.inr hb)
    obtain ⟨m, hm, hmA, hmB⟩ := isPreconnected_closed_iff.1 (convex_segment a b).isPreconnected A B hA.isClosed hB.isClosed hseg
      ⟨a, left_mem_segment ℝ a b, ha⟩ ⟨b, right_mem_segment ℝ a b, hb⟩
    obtain ⟨s, t, hs, ht, hst, rfl⟩ := hm
    refine ⟨_, ⟨hmA, hmB⟩, s • d + t • d', hcD hd hd' hs ht hst, ?_⟩
    have : b + d' = a + d := hq
    have h2 : s • (a + d) + t • (b + d') = a + d := by rw [this, ← add_smul, hst, one_smul]
    rw [← h2]
    simp only [smul_add]; abel
  rw [hint, union_add]
  exact measureReal_union_add_inter (hB.add hD).isClosed.measurableSet (hA.add hD).measure_lt_top.ne (hB.add hD).measure_lt_top.ne


theorem real_translate (S : Set (ℝ × ℝ)) (a : ℝ × ℝ) : volume.real (({a} : Set (ℝ × ℝ)) + S) = volume.real S := by
  have : ({a} : Set (ℝ × ℝ)) + S = (fun x => a + x) '' S := singleton_add
  rw [this, Measure.real, Measure.real, image_add_left, measure_preimage_add]

theorem segment_round_real (r : ℝ) (hr : 0 ≤ r) (a b : ℝ × ℝ) :
    volume.real (segment ℝ a b + disc r) = Real.pi * r ^ 2 + 2 * r * len (b - a) := by
  have h : segment ℝ a b = {a} + segment ℝ 0 (b - a) := by
    rw [singleton_add, segment_translate_image]; simp
  rw [h, add_assoc, real_translate, add_comm, ← capsule_real r hr]; rfl

/-- The triangle with corners `0`, `u`, `w`. -/
def corner (u w : ℝ × ℝ) : Set (ℝ × ℝ) := {q | ∃ s t : ℝ, 0 ≤ s ∧ 0 ≤ t ∧ s + t ≤ 1 ∧ s • u + t • w = q}

theorem corner_compact (u w : ℝ × ℝ) : IsCompact (corner u w) := by
  have h : corner u w = (fun p : ℝ × ℝ => p.1 • u + p.2 • w) '' ((Icc 0 1 ×ˢ Icc 0 1) ∩ {p | p.1 + p.2 ≤ 1}) := by
    ext q
    simp only [corner, mem_ofPred_eq, mem_image, mem_inter_iff, mem_prod, mem_Icc, Prod.exists]
    constructor
    · rintro ⟨s, t, h1, h2, h3, h⟩
      exact ⟨s, t, ⟨⟨⟨h1, by linarith⟩, h2, by linarith⟩, h3⟩, h⟩
    · rintro ⟨s, t, ⟨⟨⟨h1, _⟩, h2, _⟩, h3⟩, h⟩
      exact ⟨s, t, h1, h2, h3, h⟩
  rw [h]
  refine IsCompact.image ((isCompact_Icc.prod isCompact_Icc).inter_right ?_) (by fun_prop)
  exact isClosed_le (by fun_prop) (by fun_prop)

theorem corner_convex (u w : ℝ × ℝ) : Convex ℝ (corner u w) := by
  rintro _ ⟨s, t, h1, h2, h3, rfl⟩ _ ⟨s', t', h1', h2', h3', rfl⟩ x y hx hy hxy
  refine ⟨x * s + y * s', x * t + y * t', by positivity, by positivity, ?_, ?_⟩
  · have : x * s + y * s' + (x * t + y * t') = x * (s + t) + y * (s' + t') := by ring
    rw [this, ← hxy]
    nlinarith
  · simp only [add_smul, smul_add, mul_smul]; abel

theorem corner_round_real (r : ℝ) (hr : 0 ≤ r) (u w : ℝ × ℝ) (huw : crossWith u w ≠ 0) :
    volume.real (corner u w + disc r) = Real.pi * r ^ 2 + r * (len u + len w + len (w - u)) + |crossWith u w| / 2 := by
  set T := corner u w with hT
  set T' : Set (ℝ × ℝ) := {u + w} + -T with hT'
  have hu : T ∪ T' = segment ℝ 0 u + segment ℝ 0 w := by
    ext q
    simp only [hT, hT', corner, mem_union, mem_ofPred_eq, mem_add, singleton_add, image_add_left, mem_preimage, mem_neg, segment_eq_image, mem_image, mem_Icc]
    constructor
    · rintro (⟨s, t, h1, h2, h3, rfl⟩ | ⟨s, t, h1, h2, h3, h⟩)
      · exact ⟨s • u, ⟨s, ⟨h1, by linarith⟩, by simp⟩, t • w, ⟨t, ⟨h2, by linarith⟩, by simp⟩, rfl⟩
      · refine ⟨(1 - s) • u, ⟨1 - s, ⟨by linarith, by linarith⟩, by simp⟩, (1 - t) • w, ⟨1 - t, ⟨by linarith, by linarith⟩, by simp⟩, ?_⟩
        have : q = u + w - (s • u + t • w) := by rw [h]; abel
        rw [this]; simp only [sub_smul, one_smul]; abel
    · rintro ⟨_, ⟨s, ⟨h1, h2⟩, rfl⟩, _, ⟨t, ⟨h3, h4⟩, rfl⟩, rfl⟩
      rcases le_total (s + t) 1 with h | h
      · exact Or.inl ⟨s, t, h1, h3, h, by simp⟩
      · refine Or.inr ⟨1 - s, 1 - t, by linarith, by linarith, by linarith, ?_⟩
        simp only [sub_smul, one_smul, smul_zero, zero_add]; abel
  have hi : T ∩ T' = segment ℝ u w := by
    ext q
    simp only [hT, hT', corner, mem_inter_iff, mem_ofPred_eq, singleton_add, image_add_left, mem_preimage, mem_neg, segment, exists_and_left, exists_prop]
    constructor
    · rintro ⟨⟨s, h1, t, h2, h3, rfl⟩, ⟨s', h1', t', h2', h3', h⟩⟩
      have e : (s + s' - 1) • u + (t + t' - 1) • w = 0 := by
        have : s' • u + t' • w + (-(u + w) + (s • u + t • w)) = 0 := by rw [h]; abel
        rw [← this]; simp only [sub_smul, add_smul, one_smul]; abel
      have e1 : (s + s' - 1) * u.1 + (t + t' - 1) * w.1 = 0 := by simpa using congrArg Prod.fst e
      have e2 : (s + s' - 1) * u.2 + (t + t' - 1) * w.2 = 0 := by simpa using congrArg Prod.snd e
      have f1 : (s + s' - 1) * crossWith u w = 0 := by simp only [crossWith]; linear_combination w.2 * e1 - w.1 * e2
      have f2 : (t + t' - 1) * crossWith u w = 0 := by simp only [crossWith]; linear_combination u.1 * e2 - u.2 * e1
      have g1 := (mul_eq_zero.1 f1).resolve_right huw
      have g2 := (mul_eq_zero.1 f2).resolve_right huw
      exact ⟨s, h1, t, h2, by linarith, rfl⟩
    · rintro ⟨s, h1, t, h2, hst, rfl⟩
      refine ⟨⟨s, h1, t, h2, hst.le, rfl⟩, t, h2, s, h1, by linarith, ?_⟩
      have h : t = 1 - s := by linarith
      subst h
      simp only [sub_smul, one_smul]; abel
  have hTc : IsCompact T := corner_compact u w
  have hT'c : IsCompact T' := isCompact_singleton.add hTc.neg
  have hcv : Convex ℝ T := corner_convex u w
  have hcv' : Convex ℝ T' := (convex_singleton _).add hcv.neg
  have hcu : Convex ℝ (T ∪ T') := by rw [hu]; exact (convex_segment _ _).add (convex_segment _ _)
  have h := round_glue hTc hT'c hcv hcv' hcu (disc_compact r) (disc_convex r)
  have e1 : (T ∪ T') + disc r = sweep (sweep (disc r) u) w := by
    rw [hu]; simp only [sweep]; rw [add_comm, add_assoc]
  have e2 : volume.real (T' + disc r) = volume.real (T + disc r) := by
    have : T' + disc r = {u + w} + -(T + disc r) := by rw [hT', add_assoc, neg_add, disc_neg]
    rw [this, real_translate, Measure.real, Measure.real, Measure.measure_neg]
  rw [hi, e1, e2, parallelogram_real r hr, segment_round_real r hr] at h
  have e3 : |crossWith w u| = |crossWith u w| := by
    rw [show crossWith w u = -crossWith u w by simp only [crossWith]; ring, abs_neg]
  rw [e3] at h
  linarith

/-! ## Cutting a corner off a convex polygon -/

section
variable {K : Type} [Field K] [LinearOrder K] [IsStrictOrderedRing K]

/-- The sides of the closed polygon with corners `o` and `l`, in order. -/
def sidesOf (o : V2 K) (l : List (V2 K)) : List (V2 K × V2 K) := pairsFrom o (l ++ [o])

/-- `q` is to the left of the side `e` or on its line. -/
def LeftOf (e : V2 K × V2 K) (q : V2 K) : Prop := 0 ≤ (e.2.sub e.1).cross (q.sub e.1)

/-- Strictly convex and counter-clockwise, from the corner `o` on. -/
def Turning (o : V2 K) (l : List (V2 K)) : Prop :=
  (o :: l).Nodup ∧ ∀ e ∈ sidesOf o l, ∀ w ∈ o :: l, w = e.1 ∨ w = e.2 ∨ 0 < (e.2.sub e.1).cross (w.sub e.1)

theorem pairsFrom_append (l : List (V2 K)) (z : V2 K) : ∀ a, pairsFrom a (l ++ [z]) = pairsFrom a l ++ [(l.getLastD a, z)] := by
  induction l with
  | nil => intro a; rfl
  | cons b l ih => intro a; simp only [List.cons_append, pairsFrom, ih, List.getLastD_cons]

theorem sidesOf_cons (o b c : V2 K) (l : List (V2 K)) : sidesOf o (b :: c :: l) = (o, b) :: (b, c) :: pairsFrom c (l ++ [o]) := rfl

theorem pairsFrom_start (l : List (V2 K)) : ∀ a, ∀ w ∈ l, ∀ z, ∃ n, (w, n) ∈ pairsFrom a (l ++ [z]) := by
  induction l with
  | nil => intro a w hw; simp at hw
  | cons b l ih =>
    intro a w hw z
    simp only [List.cons_append, pairsFrom, List.mem_cons] at hw ⊢
    rcases hw with rfl | hw
    · cases l with
      | nil => exact ⟨z, Or.inr (by simp [pairsFrom])⟩
      | cons c l => exact ⟨c, Or.inr (by simp [pairsFrom])⟩
    · obtain ⟨n, hn⟩ := ih b w hw z
      exact ⟨n, Or.inr hn⟩

theorem pairsFrom_snd (l : List (V2 K)) : ∀ a, ∀ e ∈ pairsFrom a l, e.2 ∈ l := by
  induction l with
  | nil => intro a e he; simp [pairsFrom] at he
  | cons b l ih =>
    intro a e he
    simp only [pairsFrom, List.mem_cons] at he ⊢
    rcases he with rfl | he
    · exact Or.inl rfl
    · exact Or.inr (ih b e he)

theorem pairsFrom_fst (l : List (V2 K)) : ∀ a, ∀ e ∈ pairsFrom a l, e.1 ∈ a :: l := by
  induction l with
  | nil => intro a e he; simp [pairsFrom] at he
  | cons b l ih =>
    intro a e he
    simp only [pairsFrom, List.mem_cons] at he ⊢
    rcases he with rfl | he
    · exact Or.inl rfl
    · have := ih b e he
      simp only [List.mem_cons] at this
      exact Or.inr this

theorem leftOf_of {e : V2 K × V2 K} {w : V2 K} (h : w = e.1 ∨ w = e.2 ∨ 0 < (e.2.sub e.1).cross (w.sub e.1)) : LeftOf e w := by
  unfold LeftOf
  rcases h with rfl | rfl | h
  · simp [V2.sub, V2.cross]
  · simp only [V2.sub, V2.cross]; nlinarith
  · exact h.le

/-- Corners after the cut corner are strictly left of the cut. -/
theorem cut_left {o b c : V2 K} {l : List (V2 K)} (h : Turning o (b :: c :: l)) {w : V2 K} (hw : w ∈ l) : 0 < (c.sub o).cross (w.sub o) := by
  obtain ⟨hnd, hs⟩ := h
  simp only [List.nodup_cons, List.mem_cons, not_or] at hnd
  obtain ⟨⟨hob, hoc, hol⟩, ⟨hbc, hbl⟩, hcl, hln⟩ := hnd
  have hwo : w ≠ o := fun e => hol (e ▸ hw)
  have hwb : w ≠ b := fun e => hbl (e ▸ hw)
  have hwc : w ≠ c := fun e => hcl (e ▸ hw)
  have m1 : 0 < (b.sub o).cross (w.sub o) := by
    rcases hs (o, b) (by simp [sidesOf_cons]) w (by simp [hw]) with h | h | h
    · exact absurd h hwo
    · exact absurd h hwb
    · exact h
  have m2 : 0 < (c.sub b).cross (w.sub b) := by
    rcases hs (b, c) (by simp [sidesOf_cons]) w (by simp [hw]) with h | h | h
    · exact absurd h hwb
    · exact absurd h hwc
    · exact h
  obtain ⟨n, hn⟩ := pairsFrom_start l c w hw o
  have hn' : (w, n) ∈ sidesOf o (b :: c :: l) := by simp only [sidesOf_cons, List.mem_cons]; exact Or.inr (Or.inr hn)
  have ko := hs _ hn' o (by simp)
  have kb := leftOf_of (hs _ hn' b (by simp))
  have kc := hs _ hn' c (by simp)
  have lo := leftOf_of ko
  have lc := leftOf_of kc
  unfold LeftOf at lo kb lc
  by_contra hcon
  rw [not_lt] at hcon
  dsimp only at *
  have key : (c.sub b).cross (w.sub b) * (n.sub w).cross (o.sub w) + (b.sub o).cross (w.sub o) * (n.sub w).cross (c.sub w) +
      (-((c.sub o).cross (w.sub o))) * (n.sub w).cross (b.sub w) = 0 := by
    simp only [V2.cross, V2.sub]; ring
  have t1 := mul_nonneg m2.le lo
  have t2 := mul_nonneg m1.le lc
  have t3 := mul_nonneg (neg_nonneg.2 hcon) kb
  have z1 : (n.sub w).cross (o.sub w) = 0 := by
    have : (c.sub b).cross (w.sub b) * (n.sub w).cross (o.sub w) = 0 := by linarith
    exact (mul_eq_zero.1 this).resolve_left m2.ne'
  have z2 : (n.sub w).cross (c.sub w) = 0 := by
    have : (b.sub o).cross (w.sub o) * (n.sub w).cross (c.sub w) = 0 := by linarith
    exact (mul_eq_zero.1 this).resolve_left m1.ne'
  rw [z1] at ko
  rw [z2] at kc
  rcases ko with h | h | h
  · exact hwo h.symm
  · rcases kc with h' | h' | h'
    · exact hwc h'.symm
    · exact hoc (h.trans h'.symm)
    · exact lt_irrefl _ h'
  · exact lt_irrefl _ h

theorem ring_cut {o b c : V2 K} {l : List (V2 K)} (h : Turning o (b :: c :: l)) : Turning o (c :: l) := by
  have hc := fun w => @cut_left K _ _ _ o b c l h w
  obtain ⟨hnd, hs⟩ := h
  refine ⟨?_, ?_⟩
  · simp only [List.nodup_cons, List.mem_cons, not_or] at hnd ⊢
    obtain ⟨⟨hob, hoc, hol⟩, ⟨hbc, hbl⟩, hcl, hln⟩ := hnd
    exact ⟨⟨hoc, hol⟩, hcl, hln⟩
  · intro e he w hw
    have : sidesOf o (c :: l) = (o, c) :: pairsFrom c (l ++ [o]) := rfl
    rw [this, List.mem_cons] at he
    rcases he with rfl | he
    · simp only [List.mem_cons] at hw
      rcases hw with rfl | rfl | hw
      · exact Or.inl rfl
      · exact Or.inr (Or.inl rfl)
      · exact Or.inr (Or.inr (hc w hw))
    · apply hs e (by simp only [sidesOf_cons, List.mem_cons]; exact Or.inr (Or.inr he)) w
      simp only [List.mem_cons] at hw ⊢
      tauto

theorem ring_first {o b c : V2 K} {l : List (V2 K)} (h : Turning o (b :: c :: l)) : 0 < (b.sub o).cross (c.sub o) := by
  obtain ⟨hnd, hs⟩ := h
  simp only [List.nodup_cons, List.mem_cons, not_or] at hnd
  rcases hs (o, b) (by simp [sidesOf_cons]) c (by simp) with h | h | h
  · exact absurd h.symm hnd.1.2.1
  · exact absurd h.symm hnd.2.1.1
  · exact h

theorem ring_triangle {o b c : V2 K} {l : List (V2 K)} (h : Turning o (b :: c :: l)) : Turning o [b, c] := by
  have hp := ring_first h
  obtain ⟨hnd, hs⟩ := h
  simp only [List.nodup_cons, List.mem_cons, not_or] at hnd
  refine ⟨by simp; tauto, ?_⟩
  intro e he w hw
  simp only [sidesOf, pairsFrom, List.cons_append, List.nil_append, List.mem_cons, List.not_mem_nil, or_false] at he hw
  rcases he with rfl | rfl | rfl
  · rcases hw with rfl | rfl | rfl
    · exact Or.inl rfl
    · exact Or.inr (Or.inl rfl)
    · exact Or.inr (Or.inr hp)
  · rcases hw with rfl | rfl | rfl
    · refine Or.inr (Or.inr ?_); simp only [V2.cross, V2.sub] at hp ⊢; linarith
    · exact Or.inl rfl
    · exact Or.inr (Or.inl rfl)
  · rcases hw with rfl | rfl | rfl
    · exact Or.inr (Or.inl rfl)
    · refine Or.inr (Or.inr ?_); simp only [V2.cross, V2.sub] at hp ⊢; linarith
    · exact Or.inl rfl

/-- The points of the polygon: left of all sides. -/
def In (o : V2 K) (l : List (V2 K)) (q : V2 K) : Prop := ∀ e ∈ sidesOf o l, LeftOf e q

theorem corner_in {o : V2 K} {l : List (V2 K)} (h : Turning o l) {w : V2 K} (hw : w ∈ o :: l) : In o l w :=
  fun e he => leftOf_of (h.2 e he w hw)

theorem in_triangle_iff (o b c q : V2 K) : In o [b, c] q ↔
    0 ≤ (b.sub o).cross (q.sub o) ∧ 0 ≤ (c.sub b).cross (q.sub b) ∧ (c.sub o).cross (q.sub o) ≤ 0 := by
  have : (o.sub c).cross (q.sub c) = -((c.sub o).cross (q.sub o)) := by simp only [V2.cross, V2.sub]; ring
  simp only [In, sidesOf, pairsFrom, List.cons_append, List.nil_append, LeftOf, List.mem_cons, List.not_mem_nil, or_false, forall_eq_or_imp, forall_eq, this]
  simp

/-- Cutting off the corner `b` along the line from `o` to `c`. -/
theorem cut_iff {o b c d : V2 K} {l : List (V2 K)} (h : Turning o (b :: c :: d :: l)) (q : V2 K) :
    In o (b :: c :: d :: l) q ↔ In o [b, c] q ∨ In o (c :: d :: l) q := by
  have hp := ring_first h
  constructor
  · intro hq
    rcases le_total ((c.sub o).cross (q.sub o)) 0 with hle | hle
    · left
      rw [in_triangle_iff]
      exact ⟨hq (o, b) (by simp [sidesOf_cons]), hq (b, c) (by simp [sidesOf_cons]), hle⟩
    · right
      intro e he
      have : sidesOf o (c :: d :: l) = (o, c) :: pairsFrom c (d :: l ++ [o]) := rfl
      rw [this, List.mem_cons] at he
      rcases he with rfl | he
      · exact hle
      · exact hq e (by simp only [sidesOf_cons, List.mem_cons]; exact Or.inr (Or.inr he))
  · rintro (hq | hq)
    · rw [in_triangle_iff] at hq
      obtain ⟨h1, h2, h3⟩ := hq
      intro e he
      have lo := leftOf_of (h.2 e he o (by simp))
      have lb := leftOf_of (h.2 e he b (by simp))
      have lc := leftOf_of (h.2 e he c (by simp))
      unfold LeftOf at lo lb lc ⊢
      have key : (b.sub o).cross (c.sub o) * (e.2.sub e.1).cross (q.sub e.1) =
          (c.sub b).cross (q.sub b) * (e.2.sub e.1).cross (o.sub e.1) + (b.sub o).cross (q.sub o) * (e.2.sub e.1).cross (c.sub e.1) +
          (-((c.sub o).cross (q.sub o))) * (e.2.sub e.1).cross (b.sub e.1) := by
        simp only [V2.cross, V2.sub]; ring
      have t1 := mul_nonneg h2 lo
      have t2 := mul_nonneg h1 lc
      have t3 := mul_nonneg (neg_nonneg.2 h3) lb
      exact nonneg_of_mul_nonneg_right (by rw [key]; linarith) hp
    · have hnd := h.1
      simp only [List.nodup_cons, List.mem_cons, not_or] at hnd
      obtain ⟨⟨hob, hoc, hod, hol⟩, ⟨hbc, hbd, hbl⟩, ⟨hcd, hcl⟩, hdl, _⟩ := hnd
      have hoc' := hq (o, c) (by simp [sidesOf_cons])
      have hcd' := hq (c, d) (by simp [sidesOf_cons])
      have hm : (c, d) ∈ sidesOf o (b :: c :: d :: l) := by simp [sidesOf_cons, pairsFrom]
      have e1 : 0 < (d.sub c).cross (b.sub c) := by
        rcases h.2 _ hm b (by simp) with h | h | h
        · exact absurd h hbc
        · exact absurd h hbd
        · exact h
      have e2 : 0 < (d.sub c).cross (o.sub c) := by
        rcases h.2 _ hm o (by simp) with h | h | h
        · exact absurd h hoc
        · exact absurd h hod
        · exact h
      set z := (d :: l).getLastD c with hz
      have hzm : z ∈ d :: l := by
        rw [hz, List.getLastD_cons]
        rcases l.eq_nil_or_concat with rfl | ⟨l', x, rfl⟩
        · simp
        · simp
      have hzs : (z, o) ∈ pairsFrom c (d :: l ++ [o]) := by
        rw [pairsFrom_append]; simp [hz]
      have hzq := hq (z, o) (by simp only [sidesOf, List.cons_append, pairsFrom, List.mem_cons] at hzs ⊢; exact Or.inr hzs)
      have hzc : c ≠ z := fun e => by rw [← e] at hzm; simp only [List.mem_cons] at hzm; tauto
      have hzb : b ≠ z := fun e => by rw [← e] at hzm; simp only [List.mem_cons] at hzm; tauto
      have hzm' : (z, o) ∈ sidesOf o (b :: c :: d :: l) := by simp only [sidesOf_cons, List.mem_cons]; exact Or.inr (Or.inr hzs)
      have f1 : 0 < (o.sub z).cross (b.sub z) := by
        rcases h.2 _ hzm' b (by simp) with h | h | h
        · exact absurd h hzb
        · exact absurd h.symm hob
        · exact h
      have f2 : 0 < (o.sub z).cross (c.sub z) := by
        rcases h.2 _ hzm' c (by simp) with h | h | h
        · exact absurd h hzc
        · exact absurd h.symm hoc
        · exact h
      unfold LeftOf at hoc' hcd' hzq
      dsimp only at hoc' hcd' hzq
      intro e he
      simp only [sidesOf_cons, List.mem_cons] at he
      rcases he with rfl | rfl | he
      · unfold LeftOf
        dsimp only
        have key : (o.sub z).cross (c.sub z) * (b.sub o).cross (q.sub o) =
            (b.sub o).cross (c.sub o) * (o.sub z).cross (q.sub z) + (o.sub z).cross (b.sub z) * (c.sub o).cross (q.sub o) := by
          simp only [V2.cross, V2.sub]; ring
        exact nonneg_of_mul_nonneg_right (by rw [key]; have := mul_nonneg hp.le hzq; have := mul_nonneg f1.le hoc'; linarith) f2
      · unfold LeftOf
        dsimp only
        have key : (d.sub c).cross (o.sub c) * (c.sub b).cross (q.sub b) =
            (d.sub c).cross (b.sub c) * (c.sub o).cross (q.sub o) + (b.sub o).cross (c.sub o) * (d.sub c).cross (q.sub c) := by
          simp only [V2.cross, V2.sub]; ring
        exact nonneg_of_mul_nonneg_right (by rw [key]; have := mul_nonneg hp.le hcd'; have := mul_nonneg e1.le hoc'; linarith) e2
      · exact hq e (by simp only [sidesOf, List.cons_append, pairsFrom, List.mem_cons] at he ⊢; exact Or.inr he)

/-- The two parts meet in the cut only. -/
theorem cut_meet {o b c d : V2 K} {l : List (V2 K)} (h : Turning o (b :: c :: d :: l)) (q : V2 K) :
    In o [b, c] q ∧ In o (c :: d :: l) q ↔ OnSegment o c q := by
  have hp := ring_first h
  constructor
  · rintro ⟨h1, h2⟩
    rw [in_triangle_iff] at h1
    obtain ⟨h1, h3, h4⟩ := h1
    have h5 := h2 (o, c) (by simp [sidesOf_cons])
    unfold LeftOf at h5
    dsimp only at h5
    have h0 : (c.sub o).cross (q.sub o) = 0 := le_antisymm h4 h5
    refine ⟨(b.sub o).cross (q.sub o) / (b.sub o).cross (c.sub o), div_nonneg h1 hp.le, ?_, ?_⟩
    · rw [div_le_one hp]
      simp only [V2.cross, V2.sub] at *; linarith
    · have hx : (b.sub o).cross (c.sub o) * (q.x - o.x) = (b.sub o).cross (q.sub o) * (c.x - o.x) := by
        simp only [V2.cross, V2.sub] at *; linear_combination (-(b.x - o.x)) * h0
      have hy : (b.sub o).cross (c.sub o) * (q.y - o.y) = (b.sub o).cross (q.sub o) * (c.y - o.y) := by
        simp only [V2.cross, V2.sub] at *; linear_combination (-(b.y - o.y)) * h0
      ext
      · simp only [At]; field_simp; linarith
      · simp only [At]; field_simp; linarith
  · rintro ⟨t, h0, h1, rfl⟩
    have seg : ∀ m : List (V2 K), In o m o → In o m c → In o m (At o c t) := by
      intro m ho hc e he
      have a1 := ho e he
      have a2 := hc e he
      unfold LeftOf at *
      have : (e.2.sub e.1).cross ((At o c t).sub e.1) = (1 - t) * (e.2.sub e.1).cross (o.sub e.1) + t * (e.2.sub e.1).cross (c.sub e.1) := by
        simp only [V2.cross, V2.sub, At]; ring
      rw [this]
      have := mul_nonneg (sub_nonneg.2 h1) a1
      have := mul_nonneg h0 a2
      linarith
    exact ⟨seg _ (corner_in (ring_triangle h) (by simp)) (corner_in (ring_triangle h) (by simp)),
      seg _ (corner_in (ring_cut h) (by simp)) (corner_in (ring_cut h) (by simp))⟩
end

/-! ## Rounded polygons -/

/-- The region of a polygon. -/
def region (o : V2 ℝ) (l : List (V2 ℝ)) : Set (ℝ × ℝ) := {q | In o l (vecOf q)}

theorem region_closed (o : V2 ℝ) (l : List (V2 ℝ)) : IsClosed (region o l) := by
  have : region o l = ⋂ e ∈ sidesOf o l, {q : ℝ × ℝ | LeftOf e (vecOf q)} := by ext q; simp [region, In]
  rw [this]
  refine isClosed_biInter fun e _ => ?_
  unfold LeftOf
  simp only [V2.cross, V2.sub, vecOf]
  exact isClosed_le (by fun_prop) (by fun_prop)

theorem region_convex (o : V2 ℝ) (l : List (V2 ℝ)) : Convex ℝ (region o l) := by
  intro p hp q hq s t hs ht hst e he
  have h1 := hp e he
  have h2 := hq e he
  unfold LeftOf at *
  have h : t = 1 - s := by linarith
  subst h
  have : (e.2.sub e.1).cross ((vecOf (s • p + (1 - s) • q)).sub e.1) =
      s * (e.2.sub e.1).cross ((vecOf p).sub e.1) + (1 - s) * (e.2.sub e.1).cross ((vecOf q).sub e.1) := by
    simp only [V2.cross, V2.sub, vecOf, Prod.fst_add, Prod.snd_add, Prod.smul_fst, Prod.smul_snd, smul_eq_mul]; ring
  rw [this]
  positivity

theorem region_triangle (o b c : V2 ℝ) (h : 0 < (b.sub o).cross (c.sub o)) :
    region o [b, c] = {ptOf o} + corner (ptOf (b.sub o)) (ptOf (c.sub o)) := by
  ext q
  simp only [region, mem_ofPred_eq, in_triangle_iff, singleton_add, image_add_left, mem_preimage, corner]
  constructor
  · rintro ⟨h1, h2, h3⟩
    refine ⟨-((c.sub o).cross ((vecOf q).sub o)) / (b.sub o).cross (c.sub o), (b.sub o).cross ((vecOf q).sub o) / (b.sub o).cross (c.sub o),
      div_nonneg (by linarith) h.le, div_nonneg h1 h.le, ?_, ?_⟩
    · rw [← add_div, div_le_one h]
      simp only [V2.cross, V2.sub, vecOf] at *; linarith
    · ext
      · simp only [Prod.fst_add, Prod.smul_fst, smul_eq_mul, ptOf, Prod.fst_neg]
        field_simp
        simp only [V2.cross, V2.sub, vecOf]; ring
      · simp only [Prod.snd_add, Prod.smul_snd, smul_eq_mul, ptOf, Prod.snd_neg]
        field_simp
        simp only [V2.cross, V2.sub, vecOf]; ring
  · rintro ⟨s, t, hs, ht, hst, e⟩
    have e1 := congrArg Prod.fst e
    have e2 := congrArg Prod.snd e
    simp only [Prod.fst_add, Prod.snd_add, Prod.smul_fst, Prod.smul_snd, smul_eq_mul, ptOf, Prod.fst_neg, Prod.snd_neg] at e1 e2
    have hv : vecOf q = ⟨o.x + (s * (b.sub o).x + t * (c.sub o).x), o.y + (s * (b.sub o).y + t * (c.sub o).y)⟩ := by
      rw [e1, e2]; simp [vecOf]
    rw [hv]
    have k1 : (b.sub o).cross ((⟨o.x + (s * (b.sub o).x + t * (c.sub o).x), o.y + (s * (b.sub o).y + t * (c.sub o).y)⟩ : V2 ℝ).sub o) = t * (b.sub o).cross (c.sub o) := by
      simp only [V2.cross, V2.sub]; ring
    have k2 : (c.sub b).cross ((⟨o.x + (s * (b.sub o).x + t * (c.sub o).x), o.y + (s * (b.sub o).y + t * (c.sub o).y)⟩ : V2 ℝ).sub b) = (1 - s - t) * (b.sub o).cross (c.sub o) := by
      simp only [V2.cross, V2.sub]; ring
    have k3 : (c.sub o).cross ((⟨o.x + (s * (b.sub o).x + t * (c.sub o).x), o.y + (s * (b.sub o).y + t * (c.sub o).y)⟩ : V2 ℝ).sub o) = -(s * (b.sub o).cross (c.sub o)) := by
      simp only [V2.cross, V2.sub]; ring
    rw [k1, k2, k3]
    refine ⟨by positivity, mul_nonneg (by linarith) h.le, by have := mul_nonneg hs h.le; linarith⟩

theorem region_cut {o b c d : V2 ℝ} {l : List (V2 ℝ)} (h : Turning o (b :: c :: d :: l)) :
    region o (b :: c :: d :: l) = region o [b, c] ∪ region o (c :: d :: l) := by
  ext q; exact cut_iff h (vecOf q)

theorem region_meet {o b c d : V2 ℝ} {l : List (V2 ℝ)} (h : Turning o (b :: c :: d :: l)) :
    region o [b, c] ∩ region o (c :: d :: l) = segment ℝ (ptOf o) (ptOf c) := by
  ext q
  have := cut_meet h (vecOf q)
  simp only [region, mem_inter_iff, mem_ofPred_eq, this, OnSegment, segment_eq_image, mem_image, mem_Icc]
  constructor
  · rintro ⟨t, h0, h1, e⟩
    refine ⟨t, ⟨h0, h1⟩, ?_⟩
    simp only [vecOf, At, V2.mk.injEq] at e
    ext
    · simp only [ptOf, Prod.fst_add, Prod.smul_fst, smul_eq_mul]; rw [e.1]; ring
    · simp only [ptOf, Prod.snd_add, Prod.smul_snd, smul_eq_mul]; rw [e.2]; ring
  · rintro ⟨t, ⟨h0, h1⟩, rfl⟩
    refine ⟨t, h0, h1, ?_⟩
    simp only [vecOf, At, ptOf, Prod.fst_add, Prod.smul_fst, smul_eq_mul, Prod.snd_add, Prod.smul_snd]
    ext <;> simp only <;> ring

theorem region_compact (l : List (V2 ℝ)) : ∀ o b c : V2 ℝ, Turning o (b :: c :: l) → IsCompact (region o (b :: c :: l)) := by
  induction l with
  | nil =>
    intro o b c h
    rw [region_triangle o b c (ring_first h)]
    exact isCompact_singleton.add (corner_compact _ _)
  | cons d l ih =>
    intro o b c h
    rw [region_cut h]
    refine IsCompact.union ?_ (ih o c d (ring_cut h))
    rw [region_triangle o b c (ring_first h)]
    exact isCompact_singleton.add (corner_compact _ _)

/-- The length of the outline. -/
noncomputable def outlineLen (o : V2 ℝ) (l : List (V2 ℝ)) : ℝ := ((sidesOf o l).map fun e => len (ptOf e.2 - ptOf e.1)).sum
/-- Twice the signed area, by the sides. -/
def outlineArea2 (o : V2 ℝ) (l : List (V2 ℝ)) : ℝ := ((sidesOf o l).map fun e => e.1.cross e.2).sum

theorem len_sub_comm (u w : ℝ × ℝ) : len (u - w) = len (w - u) := by
  unfold len; congr 1; simp only [Prod.fst_sub, Prod.snd_sub]; ring

theorem triangle_round_real (r : ℝ) (hr : 0 ≤ r) (o b c : V2 ℝ) (h : 0 < (b.sub o).cross (c.sub o)) :
    volume.real (region o [b, c] + disc r) = Real.pi * r ^ 2 + r * outlineLen o [b, c] + outlineArea2 o [b, c] / 2 := by
  have hx : crossWith (ptOf (b.sub o)) (ptOf (c.sub o)) = (b.sub o).cross (c.sub o) := rfl
  rw [region_triangle o b c h, add_assoc, real_translate, corner_round_real r hr _ _ (by rw [hx]; exact h.ne'), hx, abs_of_pos h]
  have e1 : ptOf (b.sub o) = ptOf b - ptOf o := rfl
  have e2 : ptOf (c.sub o) = ptOf c - ptOf o := rfl
  have e3 : ptOf (c.sub o) - ptOf (b.sub o) = ptOf c - ptOf b := by rw [e1, e2]; abel
  have e4 : (b.sub o).cross (c.sub o) = outlineArea2 o [b, c] := by
    simp only [outlineArea2, sidesOf, pairsFrom, List.cons_append, List.nil_append, List.map_cons, List.map_nil, List.sum_cons, List.sum_nil, V2.cross, V2.sub]; ring
  rw [e3, e4, e1, e2]
  simp only [outlineLen, sidesOf, pairsFrom, List.cons_append, List.nil_append, List.map_cons, List.map_nil, List.sum_cons, List.sum_nil]
  rw [len_sub_comm (ptOf o) (ptOf c)]
  ring

theorem polygon_round_real (r : ℝ) (hr : 0 ≤ r) (l : List (V2 ℝ)) : ∀ o b c : V2 ℝ, Turning o (b :: c :: l) →
    volume.real (region o (b :: c :: l) + disc r) =
      Real.pi * r ^ 2 + r * outlineLen o (b :: c :: l) + outlineArea2 o (b :: c :: l) / 2 := by
  induction l with
  | nil => intro o b c h; exact triangle_round_real r hr o b c (ring_first h)
  | cons d l ih =>
    intro o b c h
    have hi := ih o c d (ring_cut h)
    have hu : Convex ℝ (region o [b, c] ∪ region o (c :: d :: l)) := by rw [← region_cut h]; exact region_convex _ _
    have hg := round_glue (region_compact [] o b c (ring_triangle h)) (region_compact l o c d (ring_cut h)) (region_convex _ _) (region_convex _ _) hu
      (disc_compact r) (disc_convex r)
    rw [← region_cut h, region_meet h, segment_round_real r hr, hi, triangle_round_real r hr o b c (ring_first h)] at hg
    have e1 : outlineLen o (b :: c :: d :: l) + 2 * len (ptOf c - ptOf o) = outlineLen o [b, c] + outlineLen o (c :: d :: l) := by
      simp only [outlineLen, sidesOf, pairsFrom, List.cons_append, List.nil_append, List.map_cons, List.map_nil, List.sum_cons, List.sum_nil]
      rw [len_sub_comm (ptOf o) (ptOf c)]
      ring
    have e2 : outlineArea2 o (b :: c :: d :: l) = outlineArea2 o [b, c] + outlineArea2 o (c :: d :: l) := by
      simp only [outlineArea2, sidesOf, pairsFrom, List.cons_append, List.nil_append, List.map_cons, List.map_nil, List.sum_cons, List.sum_nil, V2.cross]
      ring
    rw [e2]
    linear_combination hg - r * e1

theorem hasArea_of_real {P : V2 ℝ → Prop} {S : Set (ℝ × ℝ)} {a : ℝ} (h : {q : ℝ × ℝ | P (vecOf q)} = S) (hS : IsCompact S) (ha : volume.real S = a) :
    HasArea P a := by
  refine ⟨ha ▸ measureReal_nonneg, ?_⟩
  rw [h, ← ha, ofReal_measureReal hS.measure_lt_top.ne]

theorem sqrt_real {M : Mth ℝ} (hM : M.Lawful) (x : ℝ) (hx : 0 ≤ x) : M.sqrt x = Real.sqrt x := by
  have h1 := hM.sqrt_nonneg x hx
  have h2 := hM.sqrt_sq x hx
  rw [← Real.sqrt_sq h1, sq, h2]

theorem mag_real {M : Mth ℝ} (hM : M.Lawful) (a b : V2 ℝ) : (a.sub b).mag M = len (ptOf b - ptOf a) := by
  unfold V2.mag len
  rw [sqrt_real hM _ (by simp only [V2.lengthSq, V2.dot]; nlinarith [sq_nonneg (a.sub b).x, sq_nonneg (a.sub b).y])]
  congr 1
  simp only [V2.lengthSq, V2.dot, V2.sub, ptOf, Prod.fst_sub, Prod.snd_sub]; ring

/-- The points at most `r` away from the points of `S`. -/
theorem rounded_eq (P : V2 ℝ → Prop) (S : Set (ℝ × ℝ)) (h : ∀ q, q ∈ S ↔ P (vecOf q)) (r : ℝ) :
    {q : ℝ × ℝ | ∃ x, P x ∧ dist2 (vecOf q) x ≤ r * r} = S + disc r := by
  ext q
  simp only [mem_ofPred_eq, mem_add]
  constructor
  · rintro ⟨x, hx, hd⟩
    refine ⟨ptOf x, (h _).2 hx, q - ptOf x, ?_, by abel⟩
    simp only [disc, mem_ofPred_eq, Prod.fst_sub, Prod.snd_sub, ptOf]
    simp only [dist2, vecOf] at hd
    linarith [sq r]
  · rintro ⟨p, hp, d, hd, rfl⟩
    refine ⟨vecOf p, (h p).1 hp, ?_⟩
    simp only [disc, mem_ofPred_eq] at hd
    simp only [dist2, vecOf, Prod.fst_add, Prod.snd_add, add_sub_cancel_left]
    linarith [sq r]

theorem segment_iff (a b : V2 ℝ) (q : ℝ × ℝ) : q ∈ segment ℝ (ptOf a) (ptOf b) ↔ OnSegment a b (vecOf q) := by
  simp only [OnSegment, segment_eq_image, mem_image, mem_Icc]
  constructor
  · rintro ⟨t, ⟨h0, h1⟩, rfl⟩
    refine ⟨t, h0, h1, ?_⟩
    simp only [vecOf, At, ptOf, Prod.fst_add, Prod.smul_fst, smul_eq_mul, Prod.snd_add, Prod.smul_snd]
    ext <;> simp only <;> ring
  · rintro ⟨t, h0, h1, e⟩
    refine ⟨t, ⟨h0, h1⟩, ?_⟩
    simp only [vecOf, At, V2.mk.injEq] at e
    ext
    · simp only [ptOf, Prod.fst_add, Prod.smul_fst, smul_eq_mul]; rw [e.1]; ring
    · simp only [ptOf, Prod.snd_add, Prod.smul_snd, smul_eq_mul]; rw [e.2]; ring

section
variable {K : Type} [Field K] [LinearOrder K] [IsStrictOrderedRing K]

theorem hull_mono {l m : List (V2 K)} (h : ∀ v ∈ l, v ∈ m) {q : V2 K} (hq : Hull l q) : Hull m q := by
  induction hq with
  | vert v hv => exact .vert v (h v hv)
  | mix p q t _ _ h0 h1 ihp ihq => exact .mix p q t ihp ihq h0 h1

theorem in_convex (o : V2 K) (l : List (V2 K)) (p q : V2 K) (t : K) (hp : In o l p) (hq : In o l q) (h0 : 0 ≤ t) (h1 : t ≤ 1) : In o l (At p q t) := by
  intro e he
  have a1 := hp e he
  have a2 := hq e he
  unfold LeftOf at *
  have : (e.2.sub e.1).cross ((At p q t).sub e.1) = (1 - t) * (e.2.sub e.1).cross (p.sub e.1) + t * (e.2.sub e.1).cross (q.sub e.1) := by
    simp only [V2.cross, V2.sub, At]; ring
  rw [this]
  have := mul_nonneg (sub_nonneg.2 h1) a1
  have := mul_nonneg h0 a2
  linarith

theorem triangle_hull {o b c : V2 K} (h : 0 < (b.sub o).cross (c.sub o)) {q : V2 K} (hq : In o [b, c] q) : Hull [o, b, c] q := by
  rw [in_triangle_iff] at hq
  obtain ⟨h1, h2, h3⟩ := hq
  set A := (b.sub o).cross (c.sub o) with hA
  set s := -((c.sub o).cross (q.sub o)) with hs
  set t := (b.sub o).cross (q.sub o) with ht
  have hst : s + t ≤ A := by simp only [hs, ht, hA, V2.cross, V2.sub] at *; linarith
  have hs0 : 0 ≤ s := by linarith
  have ex : A * (q.x - o.x) = s * (b.x - o.x) + t * (c.x - o.x) := by simp only [hs, ht, hA, V2.cross, V2.sub]; ring
  have ey : A * (q.y - o.y) = s * (b.y - o.y) + t * (c.y - o.y) := by simp only [hs, ht, hA, V2.cross, V2.sub]; ring
  clear_value A s t
  rcases eq_or_lt_of_le (add_nonneg hs0 h1) with h0 | h0
  · have s0 : s = 0 := by linarith
    have t0 : t = 0 := by linarith
    have : q = o := by
      ext
      · have : A * (q.x - o.x) = 0 := by rw [ex, s0, t0]; ring
        linarith [(mul_eq_zero.1 this).resolve_left h.ne']
      · have : A * (q.y - o.y) = 0 := by rw [ey, s0, t0]; ring
        linarith [(mul_eq_zero.1 this).resolve_left h.ne']
    rw [this]; exact .vert o (by simp)
  · have : q = At o (At b c (t / (s + t))) ((s + t) / A) := by
      ext
      · simp only [At]; field_simp; linarith
      · simp only [At]; field_simp; linarith
    rw [this]
    refine .mix _ _ _ (.vert o (by simp)) (.mix _ _ _ (.vert b (by simp)) (.vert c (by simp)) (div_nonneg h1 h0.le) ?_) (div_nonneg h0.le h.le) ?_
    · rw [div_le_one h0]; linarith
    · rw [div_le_one h]; exact hst

theorem in_iff_hull (l : List (V2 K)) : ∀ o b c : V2 K, Turning o (b :: c :: l) → ∀ q, In o (b :: c :: l) q ↔ Hull (o :: b :: c :: l) q := by
  intro o b c h q
  constructor
  · revert o b c q
    induction l with
    | nil => intro o b c h q hq; exact triangle_hull (ring_first h) hq
    | cons d l ih =>
      intro o b c h q hq
      rcases (cut_iff h q).1 hq with hq | hq
      · exact hull_mono (by intro v; simp only [List.mem_cons, List.not_mem_nil, or_false]; tauto) (triangle_hull (ring_first h) hq)
      · exact hull_mono (by intro v; simp only [List.mem_cons]; tauto) (ih o c d (ring_cut h) q hq)
  · intro hq
    induction hq with
    | vert v hv => exact corner_in h hv
    | mix p q t _ _ h0 h1 ihp ihq => exact in_convex _ _ p q t ihp ihq h0 h1

theorem turning_of_convex {o : V2 K} {l : List (V2 K)} (h : ConvexCCW (o :: l)) : Turning o l := by
  obtain ⟨hlen, hnd, hs⟩ := h
  refine ⟨hnd, ?_⟩
  intro e he w hw
  refine (hs e ?_).2 w hw
  rw [sidesOf, pairsFrom_append] at he
  simp only [pairsFrom, List.mem_cons, List.mem_append, List.not_mem_nil, or_false] at he ⊢
  rcases he with he | rfl
  · exact Or.inr he
  · left; rw [List.getLastD_cons]

theorem edges_sides (o : V2 K) (l : List (V2 K)) : edgesOf (o :: l) = sidesOf o l := by
  have h : ∀ (l : List (V2 K)) (a z : V2 K), (a :: l).zip (l ++ [z]) = pairsFrom a (l ++ [z]) := by
    intro l
    induction l with
    | nil => intro a z; rfl
    | cons b l ih => intro a z; simp only [List.cons_append, List.zip_cons_cons, pairsFrom]; rw [← ih b z]
  unfold edgesOf sidesOf
  rw [← h]
  simp
end

end Area
open Area

/-- **C103 (balls).** The area a circle reports is that of the points it covers. -/
theorem C103_circle (M : Mth ℝ) (m : ℝ) (c : Circle ℝ) (hr : 0 ≤ c.radius) :
    HasArea (InLocalShape (.circle c)) ((Cls.circle c).massInfo M Real.pi m).area := by
  have h : {q : ℝ × ℝ | InLocalShape (.circle c) (vecOf q)} = {ptOf c.c} + disc c.radius := by
    apply rounded_eq
    intro q
    simp only [mem_singleton_iff, LocalCore, vecOf, ptOf]
    constructor
    · rintro rfl; rfl
    · intro e; rw [← e]
  refine hasArea_of_real h (isCompact_singleton.add (disc_compact _)) ?_
  rw [real_translate, real_of_eq (disc_volume _ hr) (by positivity)]
  simp only [Cls.massInfo, circleMassInfo, areaForCircle]
  rw [show (0 : ℝ) * 0 - c.radius * c.radius = -(c.radius * c.radius) by ring, abs_neg, abs_of_nonneg (by positivity)]
  ring

/-- **C103 (hollow circles).** `AreaForCircle` is the area between two circles, whichever is the inner one. -/
theorem C103_ring (c : V2 ℝ) (r1 r2 : ℝ) (h1 : 0 ≤ r1) (h2 : 0 ≤ r2) :
    HasArea (fun p => min r1 r2 ^ 2 ≤ dist2 p c ∧ dist2 p c ≤ max r1 r2 ^ 2) (areaForCircle Real.pi r1 r2) := by
  have a0 : 0 ≤ min r1 r2 := le_min h1 h2
  have a1 : min r1 r2 ≤ max r1 r2 := min_le_max
  have ha : areaForCircle Real.pi r1 r2 = Real.pi * max r1 r2 ^ 2 - Real.pi * min r1 r2 ^ 2 := by
    simp only [areaForCircle]
    rcases le_total r1 r2 with h | h
    · rw [min_eq_left h, max_eq_right h, abs_of_nonpos (by nlinarith)]; ring
    · rw [min_eq_right h, max_eq_left h, abs_of_nonneg (by nlinarith)]; ring
  refine ⟨by simp only [areaForCircle]; positivity, ?_⟩
  set S : Set (ℝ × ℝ) := disc (max r1 r2) \ {q | q.1 ^ 2 + q.2 ^ 2 < min r1 r2 ^ 2} with hS
  have e : {q : ℝ × ℝ | min r1 r2 ^ 2 ≤ dist2 (vecOf q) c ∧ dist2 (vecOf q) c ≤ max r1 r2 ^ 2} = (fun q => q + -ptOf c) ⁻¹' S := by
    ext q
    simp only [hS, disc, mem_ofPred_eq, mem_preimage, mem_sdiff, not_lt, dist2, vecOf, ptOf, Prod.fst_add, Prod.snd_add, Prod.fst_neg, Prod.snd_neg, ← sub_eq_add_neg]
    tauto
  rw [e, measure_preimage_add_right, hS, measure_sdiff _ (isOpen_lt (by fun_prop) (by fun_prop)).measurableSet.nullMeasurableSet, disc_volume _ (le_trans a0 a1),
    open_disc_volume _ a0, ha, ENNReal.ofReal_sub _ (by positivity)]
  · rw [open_disc_volume _ a0]; exact ENNReal.ofReal_ne_top
  · intro q hq
    simp only [mem_ofPred_eq, disc] at *
    nlinarith

/-- **C103 (rods).** The area a segment reports is that of the points at most its radius away from it. -/
theorem C103_segment {M : Mth ℝ} (hM : M.Lawful) (m : ℝ) (s : Segment ℝ) (hr : 0 ≤ s.radius) :
    HasArea (InLocalShape (.segment s)) ((Cls.segment s).massInfo M Real.pi m).area := by
  have h : {q : ℝ × ℝ | InLocalShape (.segment s) (vecOf q)} = segment ℝ (ptOf s.a) (ptOf s.b) + disc s.radius :=
    rounded_eq _ _ (segment_iff s.a s.b) _
  refine hasArea_of_real h (IsCompact.add ?_ (disc_compact _)) ?_
  · rw [segment_eq_image]; exact isCompact_Icc.image (by fun_prop)
  · rw [segment_round_real _ hr]
    simp only [Cls.massInfo, segmentMassInfo, areaForSegment]
    rw [mag_real hM]; ring

/-- **C103 (polygons).** The area a polygon reports is that of the points at most its radius away from the hull of its vertexes. -/
theorem C103_poly {M : Mth ℝ} (hM : M.Lawful) (m : ℝ) (p : Poly ℝ) (hr : 0 ≤ p.radius) (hv : ConvexCCW (p.loc.map Plane.v0)) :
    HasArea (InLocalShape (.poly p)) ((Cls.poly p).massInfo M Real.pi m).area := by
  have e : InLocalShape (.poly p) = fun x => ∃ q, Hull (p.loc.map Plane.v0) q ∧ dist2 x q ≤ p.radius * p.radius := rfl
  rw [e]
  simp only [Cls.massInfo, polyMassInfo]
  generalize p.loc.map Plane.v0 = l at hv
  obtain ⟨o, b, c, l, rfl⟩ : ∃ o b c l', l = o :: b :: c :: l' := by
    have := hv.1
    match l, this with
    | o :: b :: c :: l, _ => exact ⟨o, b, c, l, rfl⟩
  have ht := turning_of_convex hv
  have h := rounded_eq (Hull (o :: b :: c :: l)) (region o (b :: c :: l)) (fun q => in_iff_hull l o b c ht (vecOf q)) p.radius
  refine hasArea_of_real h ((region_compact l o b c ht).add (disc_compact _)) ?_
  rw [polygon_round_real _ hr l o b c ht]
  unfold areaForPoly
  simp only [fold_pair]
  rw [edges_sides, abs_of_nonneg hr]
  have hl : ((sidesOf o (b :: c :: l)).map fun e => (e.1.sub e.2).mag M) = (sidesOf o (b :: c :: l)).map fun e => len (ptOf e.2 - ptOf e.1) :=
    List.map_congr_left fun e _ => mag_real hM e.1 e.2
  rw [hl]
  simp only [outlineLen, outlineArea2]
  ring

example : HasArea (InLocalShape (.circle ⟨⟨1, 2⟩, ⟨0, 0⟩, 3⟩)) (9 * Real.pi) := by
  have := C103_circle realMth 1 ⟨⟨1, 2⟩, ⟨0, 0⟩, 3⟩ (by norm_num)
  simp only [Cls.massInfo, circleMassInfo, areaForCircle] at this
  norm_num at this
  rwa [mul_comm]

example : HasArea (fun p : V2 ℝ => (min 3 2 : ℝ) ^ 2 ≤ dist2 p ⟨1, 1⟩ ∧ dist2 p ⟨1, 1⟩ ≤ (max 3 2 : ℝ) ^ 2) (5 * Real.pi) := by
  have := C103_ring ⟨1, 1⟩ 3 2 (by norm_num) (by norm_num)
  rwa [show areaForCircle Real.pi 3 2 = 5 * Real.pi by simp only [areaForCircle]; norm_num; ring] at this

example (s : Segment ℝ) (ha : s.a = ⟨0, 0⟩) (hb : s.b = ⟨3, 4⟩) (hr : s.radius = 1) : HasArea (InLocalShape (.segment s)) (Real.pi + 10) := by
  have := C103_segment realMth_lawful 1 s (by rw [hr]; norm_num)
  simp only [Cls.massInfo, segmentMassInfo, areaForSegment, ha, hb, hr] at this
  rw [mag_real realMth_lawful, len, show (ptOf (⟨3, 4⟩ : V2 ℝ) - ptOf ⟨0, 0⟩).1 ^ 2 + (ptOf (⟨3, 4⟩ : V2 ℝ) - ptOf ⟨0, 0⟩).2 ^ 2 = 5 ^ 2 by simp [ptOf]; norm_num, Real.sqrt_sq (by norm_num)] at this
  convert this using 1; ring

example : HasArea (InLocalShape (.poly (Poly.new realMth exSquare (1/4)))) (2 + Real.pi / 16) := by
  have hv : (Poly.new realMth exSquare (1/4)).loc.map Plane.v0 = exSquare := setVertsGo_verts _ _ _
  have := C103_poly realMth_lawful 1 (Poly.new realMth exSquare (1/4)) (show (0 : ℝ) ≤ 1/4 by norm_num) (by rw [hv]; exact exSquare_convex)
  simp only [Cls.massInfo, polyMassInfo, areaForPoly, hv] at this
  convert this using 1
  simp [exSquare, edgesOf, V2.cross, V2.mag, V2.lengthSq, V2.dot, V2.sub, Poly.new, Poly.setVerts, realMth]
  ring

end Cm
