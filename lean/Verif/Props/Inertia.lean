import Verif.Props.Area
import Mathlib.MeasureTheory.Function.Jacobian
import Mathlib.MeasureTheory.Integral.Prod
import Mathlib.MeasureTheory.Integral.Average
import Mathlib.Analysis.SpecialFunctions.PolarCoord
import Mathlib.Analysis.SpecialFunctions.Integrals.Basic
import Mathlib.Analysis.Real.Pi.Bounds
/-! # C104: centroids and moments are those of the regions the shapes cover -/
set_option linter.unusedSectionVars false
set_option linter.unusedSimpArgs false
set_option linter.unusedVariables false

namespace Cm
open Spec MeasureTheory Set
open scoped Pointwise

/-- The average of `f` over the points with the property. -/
noncomputable def Spec.meanOver (P : V2 ℝ → Prop) (f : V2 ℝ → ℝ) : ℝ := ⨍ q in {q : ℝ × ℝ | P (vecOf q)}, f (vecOf q)

namespace Area

/-- Quadratic functions of a point whose second order part is a multiple of the squared distance from the origin. -/
def quad (k : ℝ × ℝ × ℝ × ℝ) (v : V2 ℝ) : ℝ := k.1 + k.2.1 * v.x + k.2.2.1 * v.y + k.2.2.2 * (v.x ^ 2 + v.y ^ 2)

/-- Half the vector product times the average of `quad` over the triangle with the corners `0`, `e.1`, `e.2`. -/
noncomputable def sideInt (k : ℝ × ℝ × ℝ × ℝ) (e : V2 ℝ × V2 ℝ) : ℝ :=
  e.1.cross e.2 / 2 * (k.1 + k.2.1 * (e.1.x + e.2.x) / 3 + k.2.2.1 * (e.1.y + e.2.y) / 3 + k.2.2.2 * (e.1.dot e.1 + e.1.dot e.2 + e.2.dot e.2) / 6)

theorem integral_quad (a b c : ℝ) : ∫ t in (0 : ℝ)..1, (a + b * t + c * t ^ 2) = a + b / 2 + c / 3 := by
  rw [intervalIntegral.integral_add, intervalIntegral.integral_add, intervalIntegral.integral_const_mul, intervalIntegral.integral_const_mul,
    integral_pow, integral_id]
  · simp; ring
  all_goals apply Continuous.intervalIntegrable; fun_prop

theorem integral_cub (a b c : ℝ) : ∫ t in (0 : ℝ)..1, (a * t + b * t ^ 2 + c * t ^ 3) = a / 2 + b / 3 + c / 4 := by
  rw [intervalIntegral.integral_add, intervalIntegral.integral_add, intervalIntegral.integral_const_mul, intervalIntegral.integral_const_mul,
    intervalIntegral.integral_const_mul, integral_pow, integral_pow, integral_id]
  · norm_num; ring
  all_goals apply Continuous.intervalIntegrable; fun_prop

/-- The triangle as the image of a square. -/
noncomputable def fill (o b c : V2 ℝ) (p : ℝ × ℝ) : ℝ × ℝ :=
  (o.x + p.1 * ((b.x - o.x) + p.2 * (c.x - b.x)), o.y + p.1 * ((b.y - o.y) + p.2 * (c.y - b.y)))

noncomputable def fillDeriv (o b c : V2 ℝ) (p : ℝ × ℝ) : ℝ × ℝ →L[ℝ] ℝ × ℝ :=
  (Matrix.toLin (.finTwoProd ℝ) (.finTwoProd ℝ)
    !![(b.x - o.x) + p.2 * (c.x - b.x), p.1 * (c.x - b.x); (b.y - o.y) + p.2 * (c.y - b.y), p.1 * (c.y - b.y)]).toContinuousLinearMap

theorem fill_deriv (o b c : V2 ℝ) (p : ℝ × ℝ) : HasFDerivAt (fill o b c) (fillDeriv o b c p) p := by
  unfold fillDeriv
  rw [Matrix.toLin_finTwoProd_toContinuousLinearMap]
  have h : ∀ x y z : ℝ, HasFDerivAt (fun p : ℝ × ℝ => x + p.1 * (y + p.2 * z))
      ((y + p.2 * z) • ContinuousLinearMap.fst ℝ ℝ ℝ + (p.1 * z) • ContinuousLinearMap.snd ℝ ℝ ℝ) p := by
    intro x y z
    have h1 := (hasFDerivAt_fst (𝕜 := ℝ) (p := p)).mul (((hasFDerivAt_snd (𝕜 := ℝ) (p := p)).mul_const z).const_add y)
    have h2 := h1.const_add x
    refine h2.congr_fderiv ?_
    ext <;> simp
  exact (h _ _ _).prodMk (h _ _ _)

theorem fill_det (o b c : V2 ℝ) (p : ℝ × ℝ) : (fillDeriv o b c p).det = p.1 * (b.sub o).cross (c.sub o) := by
  unfold fillDeriv
  simp only [LinearMap.det_toContinuousLinearMap, LinearMap.det_toLin, Matrix.det_fin_two_of, V2.cross, V2.sub]
  ring

theorem fill_inj (o b c : V2 ℝ) (h : 0 < (b.sub o).cross (c.sub o)) : InjOn (fill o b c) (Ioc 0 1 ×ˢ Icc 0 1) := by
  rintro ⟨s, t⟩ ⟨hs, ht⟩ ⟨s', t'⟩ ⟨hs', ht'⟩ e
  simp only [fill, Prod.mk.injEq] at e
  obtain ⟨e1, e2⟩ := e
  simp only [mem_Ioc] at hs hs'
  have k1 : (s - s') * (b.sub o).cross (c.sub o) = 0 := by
    simp only [V2.cross, V2.sub]; linear_combination (c.y - b.y) * e1 - (c.x - b.x) * e2
  have h1 : s = s' := by linarith [(mul_eq_zero.1 k1).resolve_right h.ne']
  subst h1
  have k2 : s * (t - t') * (b.sub o).cross (c.sub o) = 0 := by
    simp only [V2.cross, V2.sub]; linear_combination (b.x - o.x) * e2 - (b.y - o.y) * e1
  have h2 := (mul_eq_zero.1 ((mul_eq_zero.1 k2).resolve_right h.ne')).resolve_left hs.1.ne'
  rw [Prod.mk.injEq]
  exact ⟨rfl, by linarith⟩

theorem fill_image (o b c : V2 ℝ) (h : 0 < (b.sub o).cross (c.sub o)) : fill o b c '' (Ioc 0 1 ×ˢ Icc 0 1) = region o [b, c] \ {ptOf o} := by
  ext q
  simp only [mem_image, mem_prod, mem_Ioc, mem_Icc, Prod.exists, mem_sdiff, mem_singleton_iff, region, mem_ofPred_eq, in_triangle_iff]
  constructor
  · rintro ⟨s, t, ⟨⟨hs0, hs1⟩, ht0, ht1⟩, rfl⟩
    have k1 : (b.sub o).cross ((vecOf (fill o b c (s, t))).sub o) = s * t * (b.sub o).cross (c.sub o) := by simp only [V2.cross, V2.sub, vecOf, fill]; ring
    have k2 : (c.sub b).cross ((vecOf (fill o b c (s, t))).sub b) = (1 - s) * (b.sub o).cross (c.sub o) := by simp only [V2.cross, V2.sub, vecOf, fill]; ring
    have k3 : (c.sub o).cross ((vecOf (fill o b c (s, t))).sub o) = -(s * (1 - t) * (b.sub o).cross (c.sub o)) := by simp only [V2.cross, V2.sub, vecOf, fill]; ring
    refine ⟨⟨by rw [k1]; positivity, by rw [k2]; exact mul_nonneg (by linarith) h.le, ?_⟩, ?_⟩
    · rw [k3]; have := mul_nonneg (mul_nonneg hs0.le (sub_nonneg.2 ht1)) h.le; linarith
    · intro e
      rw [e] at k2
      have : (c.sub b).cross ((vecOf (ptOf o)).sub b) = (b.sub o).cross (c.sub o) := by simp only [V2.cross, V2.sub, vecOf, ptOf]; ring
      rw [this] at k2
      nlinarith
  · rintro ⟨⟨h1, h2, h3⟩, hne⟩
    set A := (b.sub o).cross (c.sub o) with hA
    set x := -((c.sub o).cross ((vecOf q).sub o)) with hx
    set y := (b.sub o).cross ((vecOf q).sub o) with hy
    have hsum : A - (x + y) = (c.sub b).cross ((vecOf q).sub b) := by simp only [hx, hy, hA, V2.cross, V2.sub, vecOf]; ring
    have ex : A * (q.1 - o.x) = x * (b.x - o.x) + y * (c.x - o.x) := by simp only [hx, hy, hA, V2.cross, V2.sub, vecOf]; ring
    have ey : A * (q.2 - o.y) = x * (b.y - o.y) + y * (c.y - o.y) := by simp only [hx, hy, hA, V2.cross, V2.sub, vecOf]; ring
    have hx0 : 0 ≤ x := by linarith
    have hle : x + y ≤ A := by linarith
    clear_value A x y
    have hpos : 0 < x + y := by
      rcases eq_or_lt_of_le (add_nonneg hx0 h1) with h0 | h0
      · exfalso
        have x0 : x = 0 := by linarith
        have y0 : y = 0 := by linarith
        apply hne
        rw [x0, y0] at ex ey
        have e1 := (mul_eq_zero.1 (show A * (q.1 - o.x) = 0 by rw [ex]; ring)).resolve_left h.ne'
        have e2 := (mul_eq_zero.1 (show A * (q.2 - o.y) = 0 by rw [ey]; ring)).resolve_left h.ne'
        ext
        · simp only [ptOf]; linarith
        · simp only [ptOf]; linarith
      · exact h0
    refine ⟨(x + y) / A, y / (x + y), ⟨⟨div_pos hpos h, ?_⟩, div_nonneg h1 hpos.le, ?_⟩, ?_⟩
    · rw [div_le_one h]; exact hle
    · rw [div_le_one hpos]; linarith
    · ext
      · simp only [fill]; field_simp; linarith
      · simp only [fill]; field_simp; linarith

theorem quad_continuous (k : ℝ × ℝ × ℝ × ℝ) : Continuous fun q : ℝ × ℝ => quad k (vecOf q) := by
  unfold quad vecOf; fun_prop

theorem triangle_int (k : ℝ × ℝ × ℝ × ℝ) (o b c : V2 ℝ) (h : 0 < (b.sub o).cross (c.sub o)) :
    ∫ q in region o [b, c], quad k (vecOf q) = ((sidesOf o [b, c]).map (sideInt k)).sum := by
  have h0 : ∫ q in region o [b, c], quad k (vecOf q) = ∫ q in region o [b, c] \ {ptOf o}, quad k (vecOf q) := by
    refine (setIntegral_congr_set ?_)
    exact (sdiff_null_ae_eq_self (by simp)).symm
  have hm : MeasurableSet (Ioc (0 : ℝ) 1 ×ˢ Icc (0 : ℝ) 1) := measurableSet_Ioc.prod measurableSet_Icc
  rw [h0, ← fill_image o b c h, integral_image_eq_integral_abs_det_fderiv_smul volume hm (fun x _ => (fill_deriv o b c x).hasFDerivWithinAt) (fill_inj o b c h)]
  set A := (b.sub o).cross (c.sub o) with hA
  have h1 : ∫ p in Ioc (0 : ℝ) 1 ×ˢ Icc (0 : ℝ) 1, |(fillDeriv o b c p).det| • quad k (vecOf (fill o b c p)) =
      ∫ p in Ioc (0 : ℝ) 1 ×ˢ Icc (0 : ℝ) 1, (p.1 * A) * quad k (vecOf (fill o b c p)) := by
    refine setIntegral_congr_fun hm ?_
    rintro p ⟨hp, -⟩
    dsimp only
    rw [fill_det, abs_of_pos (mul_pos hp.1 h), smul_eq_mul]
  have hcont : Continuous fun p : ℝ × ℝ => (p.1 * A) * quad k (vecOf (fill o b c p)) := by
    unfold quad vecOf fill; fun_prop
  have hint : IntegrableOn (fun p : ℝ × ℝ => (p.1 * A) * quad k (vecOf (fill o b c p))) (Ioc (0 : ℝ) 1 ×ˢ Icc (0 : ℝ) 1) (volume.prod volume) :=
    (hcont.continuousOn.integrableOn_compact (isCompact_Icc.prod isCompact_Icc)).mono_set (prod_mono Ioc_subset_Icc_self (Subset.refl _))
  rw [h1, Measure.volume_eq_prod, setIntegral_prod _ hint]
  simp_rw [integral_Icc_eq_integral_Ioc]
  rw [← intervalIntegral.integral_of_le zero_le_one]
  simp_rw [← intervalIntegral.integral_of_le (zero_le_one' ℝ)]
  set ux := b.x - o.x with hux
  set uy := b.y - o.y with huy
  set dx := c.x - b.x with hdx
  set dy := c.y - b.y with hdy
  have h2 : ∀ s t : ℝ, (s * A) * quad k (vecOf (fill o b c (s, t))) =
      s * A * (k.1 + k.2.1 * (o.x + s * ux) + k.2.2.1 * (o.y + s * uy) + k.2.2.2 * ((o.x + s * ux) ^ 2 + (o.y + s * uy) ^ 2)) +
      s * A * (k.2.1 * (s * dx) + k.2.2.1 * (s * dy) + k.2.2.2 * (2 * (o.x + s * ux) * (s * dx) + 2 * (o.y + s * uy) * (s * dy))) * t +
      s * A * (k.2.2.2 * ((s * dx) ^ 2 + (s * dy) ^ 2)) * t ^ 2 := by
    intro s t; simp only [quad, vecOf, fill, hux, huy, hdx, hdy]; ring
  simp_rw [h2, integral_quad]
  have h3 : ∀ s : ℝ, s * A * (k.1 + k.2.1 * (o.x + s * ux) + k.2.2.1 * (o.y + s * uy) + k.2.2.2 * ((o.x + s * ux) ^ 2 + (o.y + s * uy) ^ 2)) +
      s * A * (k.2.1 * (s * dx) + k.2.2.1 * (s * dy) + k.2.2.2 * (2 * (o.x + s * ux) * (s * dx) + 2 * (o.y + s * uy) * (s * dy))) / 2 +
      s * A * (k.2.2.2 * ((s * dx) ^ 2 + (s * dy) ^ 2)) / 3 =
      (A * (k.1 + k.2.1 * o.x + k.2.2.1 * o.y + k.2.2.2 * (o.x ^ 2 + o.y ^ 2))) * s +
      (A * (k.2.1 * (ux + dx / 2) + k.2.2.1 * (uy + dy / 2) + k.2.2.2 * (2 * o.x * (ux + dx / 2) + 2 * o.y * (uy + dy / 2)))) * s ^ 2 +
      (A * k.2.2.2 * (ux ^ 2 + ux * dx + dx ^ 2 / 3 + uy ^ 2 + uy * dy + dy ^ 2 / 3)) * s ^ 3 := by
    intro s; ring
  simp_rw [h3, integral_cub]
  simp only [sidesOf, pairsFrom, List.cons_append, List.nil_append, List.map_cons, List.map_nil, List.sum_cons, List.sum_nil, sideInt, hux, huy, hdx, hdy, hA,
    V2.cross, V2.sub, V2.dot]
  ring

theorem segment_null (a b : ℝ × ℝ) : volume (segment ℝ a b) = 0 := by
  have h := segment_round_real 0 le_rfl a b
  have h0 : disc 0 = {0} := by
    ext q
    simp only [disc, mem_ofPred_eq, mem_singleton_iff]
    constructor
    · intro h
      have h1 : q.1 ^ 2 = 0 := by nlinarith [sq_nonneg q.1, sq_nonneg q.2]
      have h2 : q.2 ^ 2 = 0 := by nlinarith [sq_nonneg q.1, sq_nonneg q.2]
      exact Prod.ext (pow_eq_zero_iff (two_ne_zero) |>.1 h1) (pow_eq_zero_iff (two_ne_zero) |>.1 h2)
    · rintro rfl; simp
  rw [h0] at h
  simp only [add_zero, singleton_zero] at h
  have hc : IsCompact (segment ℝ a b) := by rw [segment_eq_image]; exact isCompact_Icc.image (by fun_prop)
  have : volume.real (segment ℝ a b) = 0 := by rw [h]; ring
  exact (measureReal_eq_zero_iff hc.measure_lt_top.ne).1 this

theorem polygon_int (k : ℝ × ℝ × ℝ × ℝ) (l : List (V2 ℝ)) : ∀ o b c : V2 ℝ, Turning o (b :: c :: l) →
    ∫ q in region o (b :: c :: l), quad k (vecOf q) = ((sidesOf o (b :: c :: l)).map (sideInt k)).sum := by
  induction l with
  | nil => intro o b c h; exact triangle_int k o b c (ring_first h)
  | cons d l ih =>
    intro o b c h
    have hi := ih o c d (ring_cut h)
    have ht := triangle_int k o b c (ring_first h)
    have hd : AEDisjoint volume (region o [b, c]) (region o (c :: d :: l)) := by
      unfold AEDisjoint; rw [region_meet h]; exact segment_null _ _
    rw [region_cut h, setIntegral_union₀ hd (region_closed _ _).measurableSet.nullMeasurableSet
      ((quad_continuous k).continuousOn.integrableOn_compact (region_compact [] o b c (ring_triangle h)))
      ((quad_continuous k).continuousOn.integrableOn_compact (region_compact l o c d (ring_cut h))), hi, ht]
    simp only [sidesOf, pairsFrom, List.cons_append, List.nil_append, List.map_cons, List.map_nil, List.sum_cons, List.sum_nil]
    have : sideInt k (c, o) = -sideInt k (o, c) := by
      simp only [sideInt, V2.cross, V2.dot]; ring
    rw [this]; ring

theorem quad_int {S : Set (ℝ × ℝ)} (hS : IsCompact S) (k : ℝ × ℝ × ℝ × ℝ) :
    ∫ q in S, quad k (vecOf q) = k.1 * volume.real S + k.2.1 * (∫ q in S, q.1) + k.2.2.1 * (∫ q in S, q.2) + k.2.2.2 * ∫ q in S, (q.1 ^ 2 + q.2 ^ 2) := by
  have hi : ∀ f : ℝ × ℝ → ℝ, Continuous f → IntegrableOn f S := fun f hf => hf.continuousOn.integrableOn_compact hS
  simp only [quad, vecOf]
  rw [integral_add, integral_add, integral_add, integral_const_mul, integral_const_mul, integral_const_mul, setIntegral_const, smul_eq_mul]
  · ring
  all_goals exact hi _ (by fun_prop)

/-- A region that is symmetric about the origin has its centre there. -/
theorem sym_int {S : Set (ℝ × ℝ)} (hs : -S = S) (f : ℝ × ℝ → ℝ) (hf : ∀ q, f (-q) = -f q) : ∫ q in S, f q = 0 := by
  have h := (Measure.measurePreserving_neg (volume : Measure (ℝ × ℝ))).setIntegral_preimage_emb (MeasurableEquiv.neg (ℝ × ℝ)).measurableEmbedding f S
  have h2 : (fun q : ℝ × ℝ => -q) ⁻¹' S = S := hs
  have h3 : ∫ x in Neg.neg ⁻¹' S, f (-x) = ∫ x in S, f x := h
  rw [show (Neg.neg ⁻¹' S : Set (ℝ × ℝ)) = S from hs] at h3
  simp only [hf, integral_neg] at h3
  linarith

/-- The points between two circles about the origin. -/
def between (r R : ℝ) : Set (ℝ × ℝ) := {q | r ^ 2 ≤ q.1 ^ 2 + q.2 ^ 2 ∧ q.1 ^ 2 + q.2 ^ 2 ≤ R ^ 2}

theorem between_compact (r R : ℝ) : IsCompact (between r R) :=
  (disc_compact R).of_isClosed_subset (by
    have h1 : IsClosed {q : ℝ × ℝ | r ^ 2 ≤ q.1 ^ 2 + q.2 ^ 2} := isClosed_le (by fun_prop) (by fun_prop)
    exact h1.inter (disc_closed R)) fun _ h => h.2

theorem between_neg (r R : ℝ) : -between r R = between r R := by ext q; simp [between]

theorem between_second (r R : ℝ) (hr : 0 ≤ r) (hR : r ≤ R) : ∫ q in between r R, (q.1 ^ 2 + q.2 ^ 2) = Real.pi / 2 * (R ^ 4 - r ^ 4) := by
  have hm : MeasurableSet (between r R) := (between_compact r R).isClosed.measurableSet
  rw [← integral_indicator hm, ← integral_comp_polarCoord_symm]
  have hT : MeasurableSet (polarCoord.target) := polarCoord.open_target.measurableSet
  have h1 : ∫ p in polarCoord.target, p.1 • (between r R).indicator (fun q : ℝ × ℝ => q.1 ^ 2 + q.2 ^ 2) (polarCoord.symm p) =
      ∫ p in polarCoord.target, (Icc r R ×ˢ (univ : Set ℝ)).indicator (fun p : ℝ × ℝ => p.1 ^ 3) p := by
    refine setIntegral_congr_fun hT ?_
    rintro p hp
    simp only [polarCoord_target, mem_prod, mem_Ioi] at hp
    have e : (polarCoord.symm p).1 ^ 2 + (polarCoord.symm p).2 ^ 2 = p.1 ^ 2 := by
      rw [polarCoord_symm_apply]
      have := Real.cos_sq_add_sin_sq p.2
      simp only
      linear_combination p.1 ^ 2 * this
    have hiff : polarCoord.symm p ∈ between r R ↔ p ∈ Icc r R ×ˢ (univ : Set ℝ) := by
      simp only [between, mem_ofPred_eq, e, mem_prod, mem_Icc, mem_univ, and_true]
      rw [sq_le_sq₀ hr hp.1.le, sq_le_sq₀ hp.1.le (hr.trans hR)]
    dsimp only
    by_cases hb : polarCoord.symm p ∈ between r R
    · rw [indicator_of_mem hb, indicator_of_mem (hiff.1 hb), e, smul_eq_mul]; ring
    · rw [indicator_of_notMem hb, indicator_of_notMem (fun h => hb (hiff.2 h)), smul_zero]
  rw [h1, setIntegral_indicator (measurableSet_Icc.prod MeasurableSet.univ), polarCoord_target, prod_inter_prod, inter_univ]
  have h2 := setIntegral_prod_mul (μ := (volume : Measure ℝ)) (ν := (volume : Measure ℝ)) (fun x : ℝ => x ^ 3) (fun _ : ℝ => (1 : ℝ)) (Ioi 0 ∩ Icc r R) (Ioo (-Real.pi) Real.pi)
  simp only [mul_one] at h2
  rw [Measure.volume_eq_prod, h2]
  have h3 : ∫ x in Ioi 0 ∩ Icc r R, x ^ 3 = (R ^ 4 - r ^ 4) / 4 := by
    have : (Ioi 0 ∩ Icc r R : Set ℝ) =ᵐ[volume] Ioc r R := by
      have e : (Ioi 0 ∩ Icc r R : Set ℝ) \ {r} = Ioc r R := by
        ext x
        simp only [mem_sdiff, mem_inter_iff, mem_Ioi, mem_Icc, mem_singleton_iff, mem_Ioc]
        constructor
        · rintro ⟨⟨h1, h2, h3⟩, h4⟩; exact ⟨lt_of_le_of_ne h2 (Ne.symm h4), h3⟩
        · rintro ⟨h1, h2⟩; exact ⟨⟨by linarith, h1.le, h2⟩, h1.ne'⟩
      rw [← e]
      exact (sdiff_null_ae_eq_self (by simp)).symm
    rw [setIntegral_congr_set this, ← intervalIntegral.integral_of_le hR, integral_pow]
    norm_num
  rw [h3]
  have h4 : ∫ _ in Ioo (-Real.pi) Real.pi, (1 : ℝ) = 2 * Real.pi := by
    rw [setIntegral_const, Real.volume_real_Ioo, max_eq_left (by linarith [Real.pi_pos])]; simp; ring
  rw [h4]; ring

theorem between_real (r R : ℝ) (hr : 0 ≤ r) (hR : r ≤ R) : volume.real (between r R) = Real.pi * (R ^ 2 - r ^ 2) := by
  have h := C103_ring V2.zero r R hr (hr.trans hR)
  rw [min_eq_left hR, max_eq_right hR] at h
  have e : {q : ℝ × ℝ | r ^ 2 ≤ dist2 (vecOf q) V2.zero ∧ dist2 (vecOf q) V2.zero ≤ R ^ 2} = between r R := by
    ext q; simp [between, dist2, vecOf, V2.zero]
  obtain ⟨h0, h⟩ := h
  rw [e] at h
  rw [real_of_eq h h0]
  simp only [areaForCircle]
  rw [abs_of_nonpos (by nlinarith)]; ring

/-- Averages over a region moved by `c`. -/
theorem mean_moved {P : V2 ℝ → Prop} {S : Set (ℝ × ℝ)} (c : V2 ℝ) (h : {q : ℝ × ℝ | P (vecOf q)} = {ptOf c} + S) (f : V2 ℝ → ℝ) :
    meanOver P f = (volume.real S)⁻¹ * ∫ q in S, f ((vecOf q).add c) := by
  unfold meanOver
  rw [h, setAverage_eq, real_translate, smul_eq_mul]
  congr 1
  have e : ({ptOf c} : Set (ℝ × ℝ)) + S = (fun q => ptOf c + q) '' S := singleton_add
  rw [e, (measurePreserving_add_left volume (ptOf c)).setIntegral_image_emb (MeasurableEquiv.addLeft (ptOf c)).measurableEmbedding]
  congr 1
  ext q
  simp only [vecOf, V2.add, ptOf, Prod.fst_add, Prod.snd_add]
  rw [add_comm c.x, add_comm c.y]

end Area
open Area

/-- **C104 (polygons).** For strictly convex counter-clockwise vertexes: `CentroidForPoly` is the average of the points of the polygon, and
`MomentForPoly` is the mass times the average square of the distance from the origin of the polygon moved by the offset. -/
theorem C104_poly (M : Mth ℝ) (l : List (V2 ℝ)) (hv : ConvexCCW l) :
    centroidForPoly l = ⟨meanOver (Hull l) V2.x, meanOver (Hull l) V2.y⟩ ∧
    ∀ (m : ℝ) (o : V2 ℝ), momentForPoly M m l o = m * meanOver (Hull l) fun p => dist2 (p.add o) V2.zero := by
  obtain ⟨o, b, c, l, rfl⟩ : ∃ o b c l', l = o :: b :: c :: l' := by
    have := hv.1
    match l, this with
    | o :: b :: c :: l, _ => exact ⟨o, b, c, l, rfl⟩
  have ht := turning_of_convex hv
  have hreg : {q : ℝ × ℝ | Hull (o :: b :: c :: l) (vecOf q)} = region o (b :: c :: l) := by
    ext q; exact (in_iff_hull l o b c ht (vecOf q)).symm
  have hA2 : area2 (o :: b :: c :: l) = outlineArea2 o (b :: c :: l) := by unfold area2; rw [edges_sides]; rfl
  have hvol : volume.real (region o (b :: c :: l)) = area2 (o :: b :: c :: l) / 2 := by
    have h := polygon_int (1, 0, 0, 0) l o b c ht
    simp only [quad, zero_mul, add_zero] at h
    rw [setIntegral_const] at h
    simp only [smul_eq_mul, mul_one] at h
    rw [h, hA2]
    unfold outlineArea2
    rw [div_eq_mul_inv, mul_comm, ← List.sum_map_mul_left]
    congr 1
    apply List.map_congr_left
    intro e _
    simp only [sideInt]; ring
  have hpos : 0 < area2 (o :: b :: c :: l) := by
    have : ∀ (l : List (V2 ℝ)) (o b c : V2 ℝ), Turning o (b :: c :: l) → 0 < outlineArea2 o (b :: c :: l) := by
      intro l
      induction l with
      | nil =>
        intro o b c h
        have := ring_first h
        simp only [outlineArea2, sidesOf, pairsFrom, List.cons_append, List.nil_append, List.map_cons, List.map_nil, List.sum_cons, List.sum_nil, V2.cross, V2.sub] at *
        linarith
      | cons d l ih =>
        intro o b c h
        have h1 := ih o c d (ring_cut h)
        have h2 := ring_first h
        simp only [outlineArea2, sidesOf, pairsFrom, List.cons_append, List.nil_append, List.map_cons, List.map_nil, List.sum_cons, List.sum_nil, V2.cross, V2.sub] at *
        linarith
    rw [hA2]; exact this l o b c ht
  have hmean : ∀ k, meanOver (Hull (o :: b :: c :: l)) (quad k) = 2 / area2 (o :: b :: c :: l) * ((edgesOf (o :: b :: c :: l)).map (sideInt k)).sum := by
    intro k
    unfold meanOver
    rw [hreg, setAverage_eq, hvol, polygon_int k l o b c ht, edges_sides, smul_eq_mul, inv_div]
  constructor
  · rw [centroid_eq]
    have hx : (V2.x : V2 ℝ → ℝ) = quad (0, 1, 0, 0) := by ext v; simp [quad]
    have hy : (V2.y : V2 ℝ → ℝ) = quad (0, 0, 1, 0) := by ext v; simp [quad]
    have mx := hmean (0, 1, 0, 0)
    have my := hmean (0, 0, 1, 0)
    rw [← hx] at mx
    rw [← hy] at my
    rw [mx, my]
    have e1 : ((edgesOf (o :: b :: c :: l)).map (sideInt (0, 1, 0, 0))).sum = (1 / 6) * ((edgesOf (o :: b :: c :: l)).map fun e => (e.1.x + e.2.x) * e.1.cross e.2).sum := by
      rw [← List.sum_map_mul_left]; congr 1; apply List.map_congr_left; intro e _; simp only [sideInt]; ring
    have e2 : ((edgesOf (o :: b :: c :: l)).map (sideInt (0, 0, 1, 0))).sum = (1 / 6) * ((edgesOf (o :: b :: c :: l)).map fun e => (e.1.y + e.2.y) * e.1.cross e.2).sum := by
      rw [← List.sum_map_mul_left]; congr 1; apply List.map_congr_left; intro e _; simp only [sideInt]; ring
    rw [e1, e2]
    ext <;> simp only <;> ring
  · intro m off
    have hl : (o :: b :: c :: l).length ≠ 2 := by simp
    have hq : (fun p : V2 ℝ => dist2 (p.add off) V2.zero) = quad (off.x ^ 2 + off.y ^ 2, 2 * off.x, 2 * off.y, 1) := by
      ext v; simp only [quad, dist2, V2.add, V2.zero]; ring
    rw [C61_parallel_partial M m _ off hl hpos.ne', momentForPoly_eq M m _ _ hl, hq, hmean, centroid_eq]
    have e : ((edgesOf (o :: b :: c :: l)).map (sideInt (off.x ^ 2 + off.y ^ 2, 2 * off.x, 2 * off.y, 1))).sum =
        (off.x ^ 2 + off.y ^ 2) / 2 * area2 (o :: b :: c :: l) +
        (off.x / 3 * ((edgesOf (o :: b :: c :: l)).map fun e => (e.1.x + e.2.x) * e.1.cross e.2).sum +
        (off.y / 3 * ((edgesOf (o :: b :: c :: l)).map fun e => (e.1.y + e.2.y) * e.1.cross e.2).sum +
        (-1 / 12) * second (o :: b :: c :: l) V2.zero)) := by
      unfold area2 second
      rw [← List.sum_map_mul_left, ← List.sum_map_mul_left, ← List.sum_map_mul_left, ← List.sum_map_mul_left, ← List.sum_map_add, ← List.sum_map_add, ← List.sum_map_add]
      congr 1; apply List.map_congr_left; intro e _
      simp only [sideInt, V2.add, V2.zero, V2.dot, V2.cross]; ring
    rw [e]
    simp only [V2.dot]
    field_simp
    ring

/-- **C104 (hollow circles).** `MomentForCircle` is the mass times the average square of the distance from the origin of the points between two
circles about the offset. -/
theorem C104_ring (m d1 d2 : ℝ) (o : V2 ℝ) (h1 : 0 ≤ d1) (h2 : 0 ≤ d2) (hne : d1 ≠ d2) :
    momentForCircle m d1 d2 o = m * meanOver (fun p => min d1 d2 ^ 2 ≤ dist2 p o ∧ dist2 p o ≤ max d1 d2 ^ 2) fun p => dist2 p V2.zero := by
  have a0 : 0 ≤ min d1 d2 := le_min h1 h2
  have a1 : min d1 d2 < max d1 d2 := min_lt_max.2 hne
  have hset : {q : ℝ × ℝ | min d1 d2 ^ 2 ≤ dist2 (vecOf q) o ∧ dist2 (vecOf q) o ≤ max d1 d2 ^ 2} = {ptOf o} + between (min d1 d2) (max d1 d2) := by
    ext q
    simp [singleton_add, between, dist2, vecOf, ptOf, neg_add_eq_sub]
  rw [mean_moved o hset]
  have hq : ∀ q : ℝ × ℝ, dist2 ((vecOf q).add o) V2.zero = quad (o.x ^ 2 + o.y ^ 2, 2 * o.x, 2 * o.y, 1) (vecOf q) := by
    intro q; simp only [quad, dist2, V2.add, V2.zero]; ring
  simp_rw [hq]
  rw [quad_int (between_compact _ _), sym_int (between_neg _ _) _ (fun q => by simp), sym_int (between_neg _ _) _ (fun q => by simp),
    between_second _ _ a0 a1.le, between_real _ _ a0 a1.le]
  have hd : max d1 d2 ^ 2 - min d1 d2 ^ 2 ≠ 0 := by nlinarith
  have hsum : min d1 d2 ^ 2 + max d1 d2 ^ 2 = d1 ^ 2 + d2 ^ 2 := by
    rcases le_total d1 d2 with h | h
    · rw [min_eq_left h, max_eq_right h]
    · rw [min_eq_right h, max_eq_left h]; ring
  have hpi := Real.pi_pos.ne'
  have : (Real.pi * (max d1 d2 ^ 2 - min d1 d2 ^ 2))⁻¹ * ((o.x ^ 2 + o.y ^ 2) * (Real.pi * (max d1 d2 ^ 2 - min d1 d2 ^ 2)) + 2 * o.x * 0 + 2 * o.y * 0 +
      1 * (Real.pi / 2 * (max d1 d2 ^ 4 - min d1 d2 ^ 4))) = o.x ^ 2 + o.y ^ 2 + (min d1 d2 ^ 2 + max d1 d2 ^ 2) / 2 := by
    field_simp; ring
  dsimp only
  rw [this, hsum]
  simp only [momentForCircle, V2.lengthSq, V2.dot]; ring

/-- The mass information of a shape describes the points it covers: centre of gravity, moment about it. -/
def Spec.Describes (P : V2 ℝ → Prop) (i : ShapeMass ℝ) : Prop :=
  i.cog = ⟨meanOver P V2.x, meanOver P V2.y⟩ ∧ i.i = meanOver P fun p => dist2 p i.cog

namespace Area

theorem sym_mean {P : V2 ℝ → Prop} {S : Set (ℝ × ℝ)} (c : V2 ℝ) (h : {q : ℝ × ℝ | P (vecOf q)} = {ptOf c} + S) (hS : IsCompact S) (hs : -S = S)
    (hp : 0 < volume.real S) : c = ⟨meanOver P V2.x, meanOver P V2.y⟩ := by
  rw [mean_moved c h, mean_moved c h]
  have hx : ∀ q : ℝ × ℝ, ((vecOf q).add c).x = quad (c.x, 1, 0, 0) (vecOf q) := by intro q; simp only [quad, V2.add]; ring
  have hy : ∀ q : ℝ × ℝ, ((vecOf q).add c).y = quad (c.y, 0, 1, 0) (vecOf q) := by intro q; simp only [quad, V2.add]; ring
  simp_rw [hx, hy]
  rw [quad_int hS, quad_int hS, sym_int hs _ (fun q => by simp), sym_int hs _ (fun q => by simp)]
  ext <;> simp only <;> field_simp <;> ring

theorem disc_between (r : ℝ) : disc r = between 0 r := by
  ext q
  simp only [disc, between, mem_ofPred_eq, ne_eq, OfNat.ofNat_ne_zero, not_false_eq_true, zero_pow]
  exact ⟨fun h => ⟨by positivity, h⟩, fun h => h.2⟩

theorem disc_mean {P : V2 ℝ → Prop} (c : V2 ℝ) (r : ℝ) (hr : 0 < r) (h : {q : ℝ × ℝ | P (vecOf q)} = {ptOf c} + disc r) :
    c = ⟨meanOver P V2.x, meanOver P V2.y⟩ ∧ meanOver P (fun p => dist2 p c) = r ^ 2 / 2 := by
  have hp : volume.real (disc r) = Real.pi * r ^ 2 := real_of_eq (disc_volume r hr.le) (by positivity)
  refine ⟨sym_mean c h (disc_compact r) (disc_neg r) (by rw [hp]; positivity), ?_⟩
  rw [mean_moved c h, hp, disc_between]
  have hq : ∀ q : ℝ × ℝ, dist2 ((vecOf q).add c) c = q.1 ^ 2 + q.2 ^ 2 := by
    intro q; simp only [dist2, V2.add, vecOf]; ring
  simp_rw [hq]
  rw [between_second 0 r le_rfl hr.le]
  have := Real.pi_pos.ne'
  field_simp
  ring

theorem circle_set (c : Circle ℝ) : {q : ℝ × ℝ | InLocalShape (.circle c) (vecOf q)} = {ptOf c.c} + disc c.radius := by
  apply rounded_eq
  intro q
  simp only [mem_singleton_iff, LocalCore, vecOf, ptOf]
  constructor
  · rintro rfl; rfl
  · intro e; rw [← e]

theorem segment_set (s : Segment ℝ) : {q : ℝ × ℝ | InLocalShape (.segment s) (vecOf q)} = segment ℝ (ptOf s.a) (ptOf s.b) + disc s.radius :=
  rounded_eq _ _ (segment_iff s.a s.b) _

end Area

/-- **C104 (balls).** The mass information of a circle describes its points. -/
theorem C104_circle (M : Mth ℝ) (m : ℝ) (c : Circle ℝ) (hr : 0 < c.radius) :
    Describes (InLocalShape (.circle c)) ((Cls.circle c).massInfo M Real.pi m) := by
  obtain ⟨h1, h2⟩ := disc_mean c.c c.radius hr (circle_set c)
  refine ⟨h1, ?_⟩
  have : ((Cls.circle c).massInfo M Real.pi m).cog = c.c := rfl
  rw [this, h2]
  simp only [Cls.massInfo, circleMassInfo, momentForCircle, V2.zero, V2.lengthSq, V2.dot]; ring

/-- **C104 (polygons without rounding).** The mass information of a polygon describes the hull of its vertexes. -/
theorem C104_poly_info_partial (M : Mth ℝ) (m : ℝ) (p : Poly ℝ) (hv : ConvexCCW (p.loc.map Plane.v0)) :
    Describes (LocalCore (.poly p)) ((Cls.poly p).massInfo M Real.pi m) := by
  obtain ⟨h1, h2⟩ := C104_poly M _ hv
  refine ⟨h1, ?_⟩
  simp only [Cls.massInfo, polyMassInfo, LocalCore]
  rw [h2, one_mul]
  congr 1
  ext q
  simp only [dist2, V2.add, V2.neg, V2.zero]; ring

/-- **C104 (boxes).** `MomentForBox2` and `MomentForBox` are the mass times the average square of the distance of the points of the box. -/
theorem C104_box (m : ℝ) (bb : BB ℝ) (hw : bb.L < bb.R) (hh : bb.B < bb.T) :
    momentForBox2 m bb = m * meanOver (fun p => bb.L ≤ p.x ∧ p.x ≤ bb.R ∧ bb.B ≤ p.y ∧ p.y ≤ bb.T) (fun p => dist2 p V2.zero) ∧
    ∀ w h : ℝ, 0 < w → 0 < h → momentForBox m w h = m * meanOver (fun p => |p.x| ≤ w / 2 ∧ |p.y| ≤ h / 2) (fun p => dist2 p V2.zero) := by
  have key : ∀ b : BB ℝ, b.L < b.R → b.B < b.T →
      momentForBox2 m b = m * meanOver (fun p => b.L ≤ p.x ∧ p.x ≤ b.R ∧ b.B ≤ p.y ∧ p.y ≤ b.T) (fun p => dist2 p V2.zero) := by
    intro b h1 h2
    have hc : ConvexCCW (boxVerts b) := by
      refine ⟨by simp [boxVerts], ?_, ?_⟩
      · simp only [boxVerts, List.nodup_cons, List.mem_cons, V2.mk.injEq, List.not_mem_nil, or_false, not_or, not_and]
        have := h1.ne; have := h1.ne'; have := h2.ne; have := h2.ne'
        tauto
      · intro e he
        simp only [boxVerts, pairsFrom, List.getLastD_cons, List.getLastD_nil, List.mem_cons, List.not_mem_nil, or_false] at he
        have n1 := h1.ne; have n2 := h1.ne'; have n3 := h2.ne; have n4 := h2.ne'
        have hp : 0 < (b.R - b.L) * (b.T - b.B) := mul_pos (by linarith) (by linarith)
        rcases he with rfl | rfl | rfl | rfl <;> refine ⟨by simp only [ne_eq, V2.mk.injEq]; tauto, ?_⟩ <;> intro w hw <;>
          simp only [boxVerts, List.mem_cons, List.not_mem_nil, or_false] at hw <;> rcases hw with rfl | rfl | rfl | rfl <;>
          first
          | exact Or.inl rfl
          | exact Or.inr (Or.inl rfl)
          | (refine Or.inr (Or.inr ?_); simp only [V2.cross, V2.sub]; nlinarith)
    have hm := (C104_poly realMth _ hc).2 m V2.zero
    rw [(C61_box realMth Real.pi m b h1 h2).2.1] at hm
    rw [hm]
    congr 1
    have hP : Hull (boxVerts b) = fun p => b.L ≤ p.x ∧ p.x ≤ b.R ∧ b.B ≤ p.y ∧ p.y ≤ b.T := by
      ext p
      have := in_iff_hull _ _ _ _ (turning_of_convex hc) p
      rw [show Hull (boxVerts b) p ↔ _ from this.symm]
      simp only [In, sidesOf, pairsFrom, List.cons_append, List.nil_append, LeftOf, List.mem_cons, List.not_mem_nil, or_false, forall_eq_or_imp, forall_eq, V2.cross, V2.sub]
      have e1 : 0 < b.R - b.L := by linarith
      have e2 : 0 < b.T - b.B := by linarith
      constructor
      · rintro ⟨k1, k2, k3, k4⟩
        refine ⟨?_, ?_, ?_, ?_⟩ <;> nlinarith
      · rintro ⟨k1, k2, k3, k4⟩
        refine ⟨?_, ?_, ?_, ?_⟩ <;> nlinarith
    rw [hP]
    congr 1
    ext p
    simp only [dist2, V2.add, V2.zero]; ring
  refine ⟨key bb hw hh, fun w h hw hh => ?_⟩
  have := key ⟨-w / 2, -h / 2, w / 2, h / 2⟩ (by simp only; linarith) (by simp only; linarith)
  have e : momentForBox2 m (⟨-w / 2, -h / 2, w / 2, h / 2⟩ : BB ℝ) = momentForBox m w h := by
    simp only [momentForBox2, momentForBox, V2.scale, V2.lengthSq, V2.dot]; ring
  rw [e] at this
  rw [this]
  congr 2
  ext p
  simp only [abs_le]
  constructor
  · rintro ⟨k1, k2, k3, k4⟩; exact ⟨⟨by linarith, k2⟩, by linarith, k4⟩
  · rintro ⟨⟨k1, k2⟩, k3, k4⟩; exact ⟨by linarith, k2, by linarith, k4⟩

/-- **C104 (rods).** The centre of gravity of a segment is the average of the points it covers; its moment is that of a rectangle as long and wide
as the segment with its rounding. -/
theorem C104_segment_partial {M : Mth ℝ} (hM : M.Lawful) (m : ℝ) (s : Segment ℝ) (hr : 0 < s.radius) :
    ((Cls.segment s).massInfo M Real.pi m).cog = ⟨meanOver (InLocalShape (.segment s)) V2.x, meanOver (InLocalShape (.segment s)) V2.y⟩ ∧
    ((Cls.segment s).massInfo M Real.pi m).i =
      meanOver (fun p => |p.x| ≤ ((s.a.sub s.b).mag M + 2 * s.radius) / 2 ∧ |p.y| ≤ s.radius) (fun p => dist2 p V2.zero) := by
  constructor
  · have e : ((Cls.segment s).massInfo M Real.pi m).cog = s.a.lerp s.b (1/2) := rfl
    rw [e]
    set u := ptOf (s.b.sub s.a) with hu
    have hseg : segment ℝ (ptOf s.a) (ptOf s.b) = {ptOf (s.a.lerp s.b (1/2))} + segment ℝ (-((1/2 : ℝ) • u)) ((1/2 : ℝ) • u) := by
      rw [singleton_add, segment_translate_image]
      congr 1
      · ext <;> simp [hu, ptOf, V2.sub, V2.lerp, V2.add, V2.scale] <;> ring
      · ext <;> simp [hu, ptOf, V2.sub, V2.lerp, V2.add, V2.scale] <;> ring
    have hset := segment_set s
    rw [hseg, add_assoc] at hset
    have hc : IsCompact (segment ℝ (-((1/2 : ℝ) • u)) ((1/2 : ℝ) • u)) := by
      rw [segment_eq_image]; exact isCompact_Icc.image (by fun_prop)
    refine sym_mean _ hset (hc.add (disc_compact _)) ?_ ?_
    · rw [neg_add, disc_neg]
      congr 1
      have : -segment ℝ (-((1/2 : ℝ) • u)) ((1/2 : ℝ) • u) = (fun x => -x) '' segment ℝ (-((1/2 : ℝ) • u)) ((1/2 : ℝ) • u) := by
        rw [image_neg_eq_neg]
      rw [this, show (fun x : ℝ × ℝ => -x) = ⇑((-LinearMap.id : ℝ × ℝ →ₗ[ℝ] ℝ × ℝ).toAffineMap) by ext x <;> simp, image_segment]
      simp only [LinearMap.coe_toAffineMap, LinearMap.neg_apply, LinearMap.id_coe, id_eq, neg_neg]
      exact segment_symm _ _ _
    · rw [segment_round_real _ hr.le]
      have := len_nonneg ((1/2 : ℝ) • u - -((1/2 : ℝ) • u))
      positivity
  · simp only [Cls.massInfo, segmentMassInfo]
    have h0 : 0 ≤ (s.a.sub s.b).mag M := by rw [mag_real hM]; exact len_nonneg _
    have := (C104_box 1 ⟨0, 0, 1, 1⟩ (by norm_num) (by norm_num)).2 ((s.a.sub s.b).mag M + 2 * s.radius) (2 * s.radius) (by linarith) (by linarith)
    rw [this, one_mul]
    congr 1
    ext p
    rw [show 2 * s.radius / 2 = s.radius by ring]

namespace Area

/-- The point with coordinates `x`, `y` in the frame at `c` with first axis `e`. -/
def inFrame (c e : V2 ℝ) (x y : ℝ) : V2 ℝ := ⟨c.x + x * e.x - y * e.y, c.y + x * e.y + y * e.x⟩

theorem inFrame_inj {c e : V2 ℝ} (he : e.x ^ 2 + e.y ^ 2 = 1) {x y x' y' : ℝ} (h : inFrame c e x y = inFrame c e x' y') : x = x' ∧ y = y' := by
  simp only [inFrame, V2.mk.injEq] at h
  obtain ⟨h1, h2⟩ := h
  constructor
  · have : (x - x') * (e.x ^ 2 + e.y ^ 2) = 0 := by linear_combination e.x * h1 + e.y * h2
    rw [he] at this; linarith
  · have : (y - y') * (e.x ^ 2 + e.y ^ 2) = 0 := by linear_combination -e.y * h1 + e.x * h2
    rw [he] at this; linarith

theorem inFrame_surj {c e : V2 ℝ} (he : e.x ^ 2 + e.y ^ 2 = 1) (p : V2 ℝ) :
    p = inFrame c e ((p.x - c.x) * e.x + (p.y - c.y) * e.y) ((p.y - c.y) * e.x - (p.x - c.x) * e.y) := by
  ext <;> simp only [inFrame]
  · linear_combination -(p.x - c.x) * he
  · linear_combination -(p.y - c.y) * he

theorem inFrame_cross {c e : V2 ℝ} (he : e.x ^ 2 + e.y ^ 2 = 1) (x y x' y' u v : ℝ) :
    ((inFrame c e x' y').sub (inFrame c e x y)).cross ((inFrame c e u v).sub (inFrame c e x y)) = (x' - x) * (v - y) - (y' - y) * (u - x) := by
  simp only [inFrame, V2.cross, V2.sub]
  linear_combination ((x' - x) * (v - y) - (y' - y) * (u - x)) * he

theorem inFrame_dist {c e : V2 ℝ} (he : e.x ^ 2 + e.y ^ 2 = 1) (x y x' y' : ℝ) :
    dist2 (inFrame c e x y) (inFrame c e x' y') = (x - x') ^ 2 + (y - y') ^ 2 := by
  simp only [inFrame, dist2]
  linear_combination ((x - x') ^ 2 + (y - y') ^ 2) * he

/-- The corners of the rectangle of half sides `h` and `r` in the frame. -/
def slab (c e : V2 ℝ) (h r : ℝ) : List (V2 ℝ) := [inFrame c e h (-r), inFrame c e h r, inFrame c e (-h) r, inFrame c e (-h) (-r)]

theorem slab_convex {c e : V2 ℝ} (he : e.x ^ 2 + e.y ^ 2 = 1) {h r : ℝ} (hh : 0 < h) (hr : 0 < r) : ConvexCCW (slab c e h r) := by
  have ne : ∀ {x y x' y' : ℝ}, (x ≠ x' ∨ y ≠ y') → inFrame c e x y ≠ inFrame c e x' y' := by
    intro x y x' y' hn hc
    obtain ⟨h1, h2⟩ := inFrame_inj he hc
    tauto
  have a1 : h ≠ -h := by intro hc; linarith
  have a2 : -h ≠ h := a1.symm
  have a3 : r ≠ -r := by intro hc; linarith
  have a4 : -r ≠ r := a3.symm
  have hp := mul_pos hh hr
  refine ⟨by simp [slab], ?_, ?_⟩
  · simp only [slab, List.nodup_cons, List.mem_cons, List.not_mem_nil, or_false, not_or]
    exact ⟨⟨ne (by tauto), ne (by tauto), ne (by tauto)⟩, ⟨ne (by tauto), ne (by tauto)⟩, ne (by tauto), by simp⟩
  · intro d hd
    simp only [slab, pairsFrom, List.getLastD_cons, List.getLastD_nil, List.mem_cons, List.not_mem_nil, or_false] at hd
    rcases hd with rfl | rfl | rfl | rfl <;> refine ⟨ne (by tauto), ?_⟩ <;> intro w hw <;>
      simp only [slab, List.mem_cons, List.not_mem_nil, or_false] at hw <;> rcases hw with rfl | rfl | rfl | rfl <;>
      first
      | exact Or.inl rfl
      | exact Or.inr (Or.inl rfl)
      | (refine Or.inr (Or.inr ?_); rw [inFrame_cross he]; nlinarith)

theorem slab_hull {c e : V2 ℝ} (he : e.x ^ 2 + e.y ^ 2 = 1) {h r : ℝ} (hh : 0 < h) (hr : 0 < r) (x y : ℝ) :
    Hull (slab c e h r) (inFrame c e x y) ↔ |x| ≤ h ∧ |y| ≤ r := by
  rw [show Hull (slab c e h r) (inFrame c e x y) ↔ _ from (in_iff_hull _ _ _ _ (turning_of_convex (slab_convex he hh hr)) _).symm]
  simp only [In, sidesOf, pairsFrom, List.cons_append, List.nil_append, LeftOf, List.mem_cons, List.not_mem_nil, or_false, forall_eq_or_imp, forall_eq,
    inFrame_cross he, abs_le]
  constructor
  · rintro ⟨k1, k2, k3, k4⟩; exact ⟨⟨by nlinarith, by nlinarith⟩, by nlinarith, by nlinarith⟩
  · rintro ⟨⟨k1, k2⟩, k3, k4⟩; exact ⟨by nlinarith, by nlinarith, by nlinarith, by nlinarith⟩

theorem slab_compact {c e : V2 ℝ} (he : e.x ^ 2 + e.y ^ 2 = 1) {h r : ℝ} (hh : 0 < h) (hr : 0 < r) :
    IsCompact {q : ℝ × ℝ | Hull (slab c e h r) (vecOf q)} := by
  have ht := turning_of_convex (slab_convex (c := c) he hh hr)
  have : {q : ℝ × ℝ | Hull (slab c e h r) (vecOf q)} = region (inFrame c e h (-r)) [inFrame c e h r, inFrame c e (-h) r, inFrame c e (-h) (-r)] := by
    ext q; exact (in_iff_hull _ _ _ _ ht (vecOf q)).symm
  rw [this]
  exact region_compact _ _ _ _ ht

theorem slab_moment {c e : V2 ℝ} (he : e.x ^ 2 + e.y ^ 2 = 1) {h r : ℝ} (hh : 0 < h) (hr : 0 < r) :
    meanOver (Hull (slab c e h r)) (fun p => dist2 p c) = (h ^ 2 + r ^ 2) / 3 := by
  have hm := (C104_poly realMth _ (slab_convex (c := c) he hh hr)).2 1 ⟨-c.x, -c.y⟩
  have hq : (fun p : V2 ℝ => dist2 (p.add ⟨-c.x, -c.y⟩) V2.zero) = fun p => dist2 p c := by
    ext p; simp only [dist2, V2.add, V2.zero]; ring
  rw [hq, one_mul] at hm
  rw [← hm]
  simp only [momentForPoly, slab, edgesOf, List.rotate_cons_succ, List.rotate_zero, List.cons_append, List.nil_append, List.zip_cons_cons,
    List.zip_nil_left, List.foldl_cons, List.foldl_nil, inFrame, V2.add, V2.cross, V2.dot]
  have := hh.ne'; have := hr.ne'
  have key : ∀ N D : ℝ, N = -16 * h * r * (h ^ 2 + r ^ 2) * (e.x ^ 2 + e.y ^ 2) ^ 2 → D = -8 * h * r * (e.x ^ 2 + e.y ^ 2) →
      1 * N / (6 * D) = (h ^ 2 + r ^ 2) / 3 := by
    intro N D hN hD
    rw [hN, hD, he]
    field_simp
    norm_num
  apply key <;> ring

theorem slab_area {c e : V2 ℝ} (he : e.x ^ 2 + e.y ^ 2 = 1) {h r : ℝ} (hh : 0 < h) (hr : 0 < r) :
    volume.real {q : ℝ × ℝ | Hull (slab c e h r) (vecOf q)} = 4 * h * r := by
  have ht := turning_of_convex (slab_convex (c := c) he hh hr)
  have hs : {q : ℝ × ℝ | Hull (slab c e h r) (vecOf q)} = region (inFrame c e h (-r)) [inFrame c e h r, inFrame c e (-h) r, inFrame c e (-h) (-r)] := by
    ext q; exact (in_iff_hull _ _ _ _ ht (vecOf q)).symm
  have h1 := polygon_int (1, 0, 0, 0) _ _ _ _ ht
  simp only [quad, zero_mul, add_zero] at h1
  rw [setIntegral_const] at h1
  simp only [smul_eq_mul, mul_one] at h1
  rw [hs, h1]
  simp only [sidesOf, pairsFrom, List.cons_append, List.nil_append, List.map_cons, List.map_nil, List.sum_cons, List.sum_nil, sideInt, inFrame, V2.cross]
  linear_combination (4 * h * r) * he

theorem far_corner {L r x y : ℝ} (hL : 0 ≤ L) (q3 : -r ≤ y) (q4 : y ≤ r) (hn : ¬ ∃ u, |u| ≤ L / 2 ∧ (x - u) ^ 2 + y ^ 2 ≤ r ^ 2) :
    L ^ 2 / 4 + r ^ 2 ≤ x ^ 2 + y ^ 2 := by
  rcases le_or_gt x (L / 2) with k1 | k1
  · rcases le_or_gt (-(L / 2)) x with k2 | k2
    · refine absurd ⟨x, abs_le.2 ⟨k2, k1⟩, ?_⟩ hn
      nlinarith
    · have h : r ^ 2 < (x - -(L / 2)) ^ 2 + y ^ 2 := lt_of_not_ge fun hk => hn ⟨-(L / 2), abs_le.2 ⟨le_rfl, by linarith⟩, hk⟩
      nlinarith [mul_nonneg hL (show 0 ≤ -(L / 2) - x by linarith)]
  · have h : r ^ 2 < (x - L / 2) ^ 2 + y ^ 2 := lt_of_not_ge fun hk => hn ⟨L / 2, abs_le.2 ⟨by linarith, le_rfl⟩, hk⟩
    nlinarith [mul_nonneg hL (show 0 ≤ x - L / 2 by linarith)]

/-- Cutting away places where the function is above its average lowers the average. -/
theorem mean_cut {R S : Set (ℝ × ℝ)} (hR : IsCompact R) (hS : IsCompact S) (hsub : S ⊆ R) (f : ℝ × ℝ → ℝ) (hf : Continuous f) (k : ℝ)
    (hk : ∀ q ∈ R \ S, k ≤ f q) (hm : ⨍ q in R, f q < k) (hp : 0 < volume.real S) (hlt : volume.real S < volume.real R) :
    ⨍ q in S, f q < ⨍ q in R, f q := by
  have hi : IntegrableOn f R := hf.continuousOn.integrableOn_compact hR
  have h1 : ∫ q in R \ S, f q = (∫ q in R, f q) - ∫ q in S, f q := setIntegral_sdiff hS.measurableSet hi hsub
  have hv : volume.real (R \ S) = volume.real R - volume.real S := measureReal_sdiff hsub hS.measurableSet hR.measure_lt_top.ne
  have h2 : k * (volume.real R - volume.real S) ≤ ∫ q in R \ S, f q := by
    have hle := setIntegral_mono_on (μ := volume) (f := fun _ => k) (g := f) (s := R \ S)
      (integrableOn_const (measure_ne_top_of_subset sdiff_subset hR.measure_lt_top.ne)) (hi.mono_set sdiff_subset)
      (MeasurableSet.diff hR.measurableSet hS.measurableSet) hk
    rw [setIntegral_const, hv, smul_eq_mul] at hle
    linarith
  have hpR : 0 < volume.real R := hp.trans hlt
  rw [setAverage_eq, smul_eq_mul] at hm ⊢
  rw [setAverage_eq, smul_eq_mul, inv_mul_lt_iff₀ hp]
  rw [h1] at h2
  set I := ∫ q in R, f q
  set J := ∫ q in S, f q
  set A := volume.real R
  set B := volume.real S
  set m := A⁻¹ * I with hmdef
  have hI : I = m * A := by rw [hmdef]; field_simp
  nlinarith [mul_pos (sub_pos.2 hm) (sub_pos.2 hlt)]

end Area

/-- **C104 (violated).** The moment of a segment is not that of the points it covers. It is too large for every segment with rounding. -/
theorem C104_segment_moment {M : Mth ℝ} (hM : M.Lawful) (m : ℝ) (s : Segment ℝ) (hr : 0 < s.radius) :
    meanOver (InLocalShape (.segment s)) (fun p => dist2 p ((Cls.segment s).massInfo M Real.pi m).cog) < ((Cls.segment s).massInfo M Real.pi m).i ∧
    ¬ Describes (InLocalShape (.segment s)) ((Cls.segment s).massInfo M Real.pi m) := by
  refine (fun h => ⟨h, fun hd => h.ne hd.2.symm⟩) ?_
  set L := len (ptOf s.b - ptOf s.a) with hL
  have hL0 : 0 ≤ L := len_nonneg _
  have hLsq : L ^ 2 = (s.b.x - s.a.x) ^ 2 + (s.b.y - s.a.y) ^ 2 := by
    rw [hL, len, Real.sq_sqrt (by positivity)]; rfl
  obtain ⟨e, he, hx, hy⟩ : ∃ e : V2 ℝ, e.x ^ 2 + e.y ^ 2 = 1 ∧ s.b.x - s.a.x = L * e.x ∧ s.b.y - s.a.y = L * e.y := by
    rcases hL0.eq_or_lt with h | h
    · refine ⟨⟨1, 0⟩, by norm_num, ?_, ?_⟩ <;> rw [← h] at hLsq ⊢ <;> nlinarith [sq_nonneg (s.b.x - s.a.x), sq_nonneg (s.b.y - s.a.y)]
    · refine ⟨⟨(s.b.x - s.a.x) / L, (s.b.y - s.a.y) / L⟩, ?_, ?_, ?_⟩
      · simp only [div_pow, ← add_div, ← hLsq]; exact div_self (by positivity)
      · simp only; field_simp
      · simp only; field_simp
  set r := s.radius with hrdef
  have hi : ((Cls.segment s).massInfo M Real.pi m).i = ((L / 2 + r) ^ 2 + r ^ 2) / 3 := by
    simp only [Cls.massInfo, segmentMassInfo, momentForBox]
    rw [mag_real hM, ← hL, ← hrdef]; ring
  have hcog : ((Cls.segment s).massInfo M Real.pi m).cog = s.a.lerp s.b (1/2) := rfl
  rw [hi, hcog]
  set c := s.a.lerp s.b (1/2) with hc
  have hcx : c.x = (s.a.x + s.b.x) / 2 := by simp only [hc, V2.lerp, V2.add, V2.scale]; ring
  have hcy : c.y = (s.a.y + s.b.y) / 2 := by simp only [hc, V2.lerp, V2.add, V2.scale]; ring
  have hh : 0 < L / 2 + r := by linarith
  rw [← slab_moment (c := c) he hh hr]
  have hP : ∀ t, At s.a s.b t = inFrame c e (L * (t - 1 / 2)) 0 := by
    intro t
    ext
    · simp only [At, inFrame, hcx]; linear_combination (t - 1 / 2) * hx
    · simp only [At, inFrame, hcy]; linear_combination (t - 1 / 2) * hy
  have hin : ∀ x y : ℝ, InLocalShape (.segment s) (inFrame c e x y) ↔ ∃ u, |u| ≤ L / 2 ∧ (x - u) ^ 2 + y ^ 2 ≤ r ^ 2 := by
    intro x y
    constructor
    · rintro ⟨q, ⟨t, h0, h1, hq⟩, hd⟩
      rw [hq, hP, inFrame_dist he] at hd
      refine ⟨L * (t - 1 / 2), abs_le.2 ⟨by nlinarith, by nlinarith⟩, ?_⟩
      rw [sub_zero] at hd
      exact hd.trans_eq (by rw [hrdef]; exact (sq _).symm)
    · rintro ⟨u, hu, hd⟩
      rw [abs_le] at hu
      obtain ⟨t, h0, h1, ht⟩ : ∃ t : ℝ, 0 ≤ t ∧ t ≤ 1 ∧ L * (t - 1 / 2) = u := by
        rcases hL0.eq_or_lt with h | h
        · refine ⟨0, le_rfl, zero_le_one, ?_⟩
          rw [← h] at hu ⊢; linarith
        · refine ⟨u / L + 1 / 2, ?_, ?_, ?_⟩
          · have : -(1 / 2) ≤ u / L := by rw [le_div_iff₀ h]; linarith
            linarith
          · have : u / L ≤ 1 / 2 := by rw [div_le_iff₀ h]; linarith
            linarith
          · field_simp; ring
      refine ⟨At s.a s.b t, ⟨t, h0, h1, rfl⟩, ?_⟩
      rw [hP, inFrame_dist he, ht, sub_zero]
      exact hd.trans_eq (by rw [hrdef]; exact sq _)
  unfold meanOver
  apply mean_cut (slab_compact he hh hr) ?_ ?_ (fun q => dist2 (vecOf q) c) (by unfold dist2 vecOf; fun_prop) (L ^ 2 / 4 + r ^ 2) ?_ ?_ ?_ ?_
  · rw [segment_set]
    refine IsCompact.add ?_ (disc_compact _)
    rw [segment_eq_image]; exact isCompact_Icc.image (by fun_prop)
  · intro q hq
    simp only [mem_ofPred_eq] at hq ⊢
    rw [inFrame_surj (c := c) he (vecOf q)] at hq ⊢
    rw [hin] at hq
    rw [slab_hull he hh hr]
    obtain ⟨u, hu, h⟩ := hq
    have h1 := abs_le_of_sq_le_sq' (show (((vecOf q).x - c.x) * e.x + ((vecOf q).y - c.y) * e.y - u) ^ 2 ≤ r ^ 2 by nlinarith [sq_nonneg (((vecOf q).y - c.y) * e.x - ((vecOf q).x - c.x) * e.y)]) hr.le
    have h2 := abs_le_of_sq_le_sq' (show (((vecOf q).y - c.y) * e.x - ((vecOf q).x - c.x) * e.y) ^ 2 ≤ r ^ 2 by nlinarith [sq_nonneg (((vecOf q).x - c.x) * e.x + ((vecOf q).y - c.y) * e.y - u)]) hr.le
    rw [abs_le] at hu ⊢
    exact ⟨⟨by linarith, by linarith⟩, abs_le.2 h2⟩
  · rintro q ⟨hq, hn⟩
    simp only [mem_ofPred_eq] at hq hn ⊢
    obtain ⟨x, y, hxy⟩ : ∃ x y, vecOf q = inFrame c e x y := ⟨_, _, inFrame_surj he _⟩
    have hd : dist2 (vecOf q) c = x ^ 2 + y ^ 2 := by
      have := inFrame_dist (c := c) he x y 0 0
      rw [show inFrame c e 0 0 = c by simp [inFrame], ← hxy] at this
      rw [this]; ring
    rw [hd]
    rw [hxy, hin] at hn
    rw [hxy, slab_hull he hh hr, abs_le, abs_le] at hq
    obtain ⟨⟨q1, q2⟩, q3, q4⟩ := hq
    exact far_corner hL0 q3 q4 hn
  · have := slab_moment (c := c) he hh hr
    unfold meanOver at this
    rw [this]
    nlinarith [sq_nonneg (L - r), sq_nonneg r, mul_pos hr hr]
  · rw [segment_set, segment_round_real _ hr.le]
    have := Real.pi_pos
    positivity
  · rw [slab_area he hh hr, segment_set, segment_round_real _ hr.le, ← hL]
    have hpi : Real.pi < 4 := lt_trans Real.pi_lt_d2 (by norm_num)
    nlinarith [mul_pos hr hr, hpi]

/-- The triangle with corners in (0,0), (3,0) and (0,3). -/
def exTriangle : List (V2 ℝ) := [⟨0, 0⟩, ⟨3, 0⟩, ⟨0, 3⟩]

theorem exTriangle_convex : ConvexCCW exTriangle := by
  refine ⟨by simp [exTriangle], by simp [exTriangle], ?_⟩
  simp [exTriangle, pairsFrom, V2.cross, V2.sub]

example : meanOver (Hull exTriangle) V2.x = 1 ∧ meanOver (Hull exTriangle) V2.y = 1 ∧
    meanOver (Hull exTriangle) (fun p => dist2 (p.add ⟨0, 0⟩) V2.zero) = 3 := by
  obtain ⟨h1, h2⟩ := C104_poly realMth exTriangle exTriangle_convex
  have h3 := h2 1 ⟨0, 0⟩
  rw [V2.ext_iff] at h1
  refine ⟨h1.1.symm.trans ?_, h1.2.symm.trans ?_, (one_mul _).symm.trans (h3.symm.trans ?_)⟩ <;>
    simp [exTriangle, centroidForPoly, momentForPoly, edgesOf, V2.cross, V2.add, V2.scale, V2.zero, V2.dot] <;> norm_num

example : meanOver (fun p => (min 1 2 : ℝ) ^ 2 ≤ dist2 p ⟨3, 4⟩ ∧ dist2 p ⟨3, 4⟩ ≤ (max 1 2 : ℝ) ^ 2) (fun p => dist2 p V2.zero) = 55 / 2 := by
  have h := C104_ring 1 1 2 ⟨3, 4⟩ (by norm_num) (by norm_num) (by norm_num)
  rw [one_mul] at h
  rw [← h]
  simp [momentForCircle, V2.lengthSq, V2.dot]; norm_num

example : Describes (InLocalShape (.circle ⟨⟨1, 2⟩, ⟨0, 0⟩, 3⟩)) ⟨7, 9 / 2, Real.pi * 9, ⟨1, 2⟩⟩ := by
  have := C104_circle realMth 7 ⟨⟨1, 2⟩, ⟨0, 0⟩, 3⟩ (by norm_num)
  simp only [Cls.massInfo, circleMassInfo, momentForCircle, areaForCircle] at this
  convert this using 2 <;> norm_num [V2.zero, V2.lengthSq, V2.dot]

example : Describes (LocalCore (.poly (Poly.new realMth exTriangle 0))) ((Cls.poly (Poly.new realMth exTriangle 0)).massInfo realMth Real.pi 2) :=
  C104_poly_info_partial realMth 2 _ (by rw [show (Poly.new realMth exTriangle 0).loc.map Plane.v0 = exTriangle from setVertsGo_verts _ _ _]; exact exTriangle_convex)

example : meanOver (fun p => (0 : ℝ) ≤ p.x ∧ p.x ≤ 3 ∧ 0 ≤ p.y ∧ p.y ≤ 6) (fun p => dist2 p V2.zero) = 15 := by
  have h := (C104_box 1 ⟨0, 0, 3, 6⟩ (by norm_num) (by norm_num)).1
  rw [one_mul] at h
  rw [← h]
  simp [momentForBox2, momentForBox, V2.scale, V2.lengthSq, V2.dot]; norm_num

example (s : Segment ℝ) (ha : s.a = ⟨0, 0⟩) (hb : s.b = ⟨2, 4⟩) (hr : s.radius = 1) :
    meanOver (InLocalShape (.segment s)) V2.x = 1 ∧ meanOver (InLocalShape (.segment s)) V2.y = 2 := by
  have h := (C104_segment_partial realMth_lawful 1 s (by rw [hr]; norm_num)).1
  simp only [Cls.massInfo, segmentMassInfo, ha, hb, V2.lerp, V2.add, V2.scale, V2.mk.injEq] at h
  constructor
  · rw [← h.1]; norm_num
  · rw [← h.2]; norm_num

example (s : Segment ℝ) (ha : s.a = ⟨1, 1⟩) (hb : s.b = ⟨4, 5⟩) (hr : s.radius = 1) :
    ¬ Describes (InLocalShape (.segment s)) ((Cls.segment s).massInfo realMth Real.pi 5) :=
  (C104_segment_moment realMth_lawful 5 s (by rw [hr]; norm_num)).2

end Cm
