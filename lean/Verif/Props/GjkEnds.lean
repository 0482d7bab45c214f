import Mathlib.Data.Sym.Card
import Verif.Props.DetectEdges
import Verif.Props.SupportCount
/-! # C106: the search for closest points ends by itself -/
set_option linter.unusedSectionVars false
set_option linter.unusedSimpArgs false
set_option linter.unusedVariables false

namespace Cm
open Spec
variable {K : Type} [Field K] [LinearOrder K] [IsStrictOrderedRing K]

/-! ## Every iteration of GJK comes strictly nearer to the origin -/

theorem closestDist_at (a b : V2 K) : ∃ t, 0 ≤ t ∧ t ≤ 1 ∧ closestDist a b = (At a b t).lengthSq := by
  obtain ⟨m0, m1⟩ := closestT_mem a b
  exact ⟨(1 + closestT a b) / 2, by linarith, by linarith, by rw [closestDist, lerpT_at]⟩

theorem at_swap (a b : V2 K) (t : K) : At b a (1 - t) = At a b t := by
  simp only [At]; ext <;> simp only <;> ring

theorem closestDist_comm (a b : V2 K) : closestDist a b = closestDist b a := by
  have key : ∀ a b : V2 K, closestDist a b ≤ closestDist b a := by
    intro a b
    obtain ⟨t, h0, h1, e⟩ := closestDist_at b a
    rw [e, ← at_swap b a t]
    exact closestDist_le a b (1 - t) (by linarith) (by linarith)
  exact le_antisymm (key a b) (key b a)

/-- A point in front of an end point makes the segment to it nearer. -/
theorem nearer_end (v p : V2 K) (h : p.dot v < v.dot v) : closestDist v p < v.lengthSq := by
  have hL : 0 < (p.sub v).lengthSq := by
    refine lt_of_le_of_ne (lengthSq_nonneg _) (fun e => ?_)
    have := lengthSq_eq_zero _ e.symm
    simp only [V2.sub, V2.zero, V2.mk.injEq] at this
    have hx : p.x = v.x := sub_eq_zero.1 this.1
    have hy : p.y = v.y := sub_eq_zero.1 this.2
    simp only [V2.dot, hx, hy] at h; exact lt_irrefl _ h
  have key : ∀ t, (At v p t).lengthSq = v.lengthSq + (2 * (t * (p.dot v - v.dot v)) + t * (t * (p.sub v).lengthSq)) := by
    intro t; simp only [At, V2.lengthSq, V2.dot, V2.sub]; ring
  rcases le_or_gt (v.dot v - p.dot v) (p.sub v).lengthSq with hle | hgt
  · have := closestDist_le v p ((v.dot v - p.dot v) / (p.sub v).lengthSq) (div_nonneg (by linarith) hL.le) ((div_le_one hL).2 hle)
    rw [key] at this
    refine lt_of_le_of_lt this ?_
    rw [div_mul_cancel₀ _ hL.ne']
    have : 0 < (v.dot v - p.dot v) / (p.sub v).lengthSq * (v.dot v - p.dot v) := mul_pos (div_pos (by linarith) hL) (by linarith)
    nlinarith
  · have := closestDist_le v p 1 zero_le_one (le_refl _)
    rw [key] at this
    linarith

/-- A segment which crosses the line through the origin along `N` above the point `q` of that line, and not above the origin. `D` and `N` are perpendicular and
of the same length. -/
theorem nearer_axis (a b q D N : V2 K) (L : K) (hL : 0 < L) (id : ∀ u : V2 K, u.lengthSq * L = u.dot D * u.dot D + u.dot N * u.dot N)
    (hq : q.dot D = 0) (ha : q.dot N < a.dot N) (hax : a.dot D ≤ 0) (hbx : 0 < b.dot D) (hb : b.dot N = q.dot N)
    (hc : a.dot N * b.dot D ≤ b.dot N * a.dot D) : closestDist a b < q.lengthSq := by
  have hp : 0 < b.dot D - a.dot D := by linarith
  obtain ⟨t, ht⟩ : ∃ t, t = -(a.dot D) / (b.dot D - a.dot D) := ⟨_, rfl⟩
  have tm : t * (b.dot D - a.dot D) = -(a.dot D) := by rw [ht]; exact div_mul_cancel₀ _ hp.ne'
  have t0 : 0 ≤ t := by rw [ht]; exact div_nonneg (by linarith) hp.le
  have t1 : t < 1 := by rw [ht]; exact (div_lt_one hp).2 (by linarith)
  refine lt_of_le_of_lt (closestDist_le a b t t0 t1.le) ?_
  have ex : (At a b t).dot D = 0 := by
    have : (At a b t).dot D = a.dot D + t * (b.dot D - a.dot D) := by simp only [At, V2.dot]; ring
    rw [this, tm]; ring
  have ey : (At a b t).dot N = a.dot N + t * (b.dot N - a.dot N) := by simp only [At, V2.dot]; ring
  set y := (At a b t).dot N with hy
  have y0 : y ≤ 0 := by
    have : y * (b.dot D - a.dot D) = a.dot N * b.dot D - b.dot N * a.dot D := by
      rw [ey]; linear_combination (b.dot N - a.dot N) * tm
    by_contra hn
    have := mul_pos (not_le.1 hn) hp
    linarith
  have y1 : q.dot N < y := by
    rw [ey, hb]
    have := mul_pos (by linarith : 0 < 1 - t) (by linarith : 0 < a.dot N - q.dot N)
    linarith
  have h1 := id (At a b t)
  have h2 := id q
  rw [ex, ← hy] at h1
  rw [hq] at h2
  have : (At a b t).lengthSq * L < q.lengthSq * L := by rw [h1, h2]; nlinarith
  exact lt_of_mul_lt_mul_right this hL.le

/-- The step of GJK: when the origin is not yet enclosed and the new point lies beyond, one of the two new sides is strictly nearer. -/
theorem gjk_nearer (v0 v1 p n : V2 K) (hc : 0 ≤ v0.cross v1)
    (hn : n = if -1 < closestT v0 v1 ∧ closestT v0 v1 < 1 then (v1.sub v0).perp else (lerpT v0 v1 (closestT v0 v1)).neg)
    (hin : ¬ (0 < p.cross v0 ∧ 0 < v1.cross p)) (hax : checkAxis v0 v1 p n = false) :
    p ≠ v0 ∧ p ≠ v1 ∧ min (closestDist v0 p) (closestDist p v1) < closestDist v0 v1 := by
  rw [checkAxis, decide_eq_false_iff_not, not_le, max_lt_iff] at hax
  refine ⟨fun e => lt_irrefl _ (e ▸ hax.1), fun e => lt_irrefl _ (e ▸ hax.2), ?_⟩
  obtain ⟨tm, tM⟩ := closestT_mem v0 v1
  obtain ⟨s1, s2, s3⟩ := closestT_spec v0 v1
  rw [min_lt_iff]
  by_cases ht : -1 < closestT v0 v1 ∧ closestT v0 v1 < 1
  · rw [if_pos ht] at hn
    obtain ⟨hne, hq⟩ := s1 ht.1 ht.2
    have hL : 0 < (v1.sub v0).lengthSq := lengthSq_sub_pos hne
    have hcd : closestDist v0 v1 = (lerpT v0 v1 (closestT v0 v1)).lengthSq := rfl
    rw [hcd]
    obtain ⟨r, hr⟩ : ∃ r, r = (1 + closestT v0 v1) / 2 := ⟨_, rfl⟩
    have hql : lerpT v0 v1 (closestT v0 v1) = At v0 v1 r := by rw [lerpT_at, hr]
    have r0 : 0 < r := by rw [hr]; linarith [ht.1]
    have r1 : r < 1 := by rw [hr]; linarith [ht.2]
    rw [hql] at hq ⊢
    rw [hn] at hax
    set D := v1.sub v0 with hD
    have hx0 : v0.dot D = -(r * D.lengthSq) := by
      have : (At v0 v1 r).dot D = v0.dot D + r * D.lengthSq := by rw [hD]; simp only [At, V2.dot, V2.sub, V2.lengthSq]; ring
      linarith
    have hx1 : v1.dot D = (1 - r) * D.lengthSq := by
      have : v1.dot D = v0.dot D + D.lengthSq := by rw [hD]; simp only [V2.dot, V2.sub, V2.lengthSq]; ring
      rw [this, hx0]; ring
    have px0 := mul_pos r0 hL
    have px1 := mul_pos (by linarith : 0 < 1 - r) hL
    have hy0 : v0.dot D.perp = (At v0 v1 r).dot D.perp := by rw [hD]; simp only [At, V2.dot, V2.sub, V2.perp]; ring
    have hy1 : v1.dot D.perp = (At v0 v1 r).dot D.perp := by rw [hD]; simp only [At, V2.dot, V2.sub, V2.perp]; ring
    have hyc : v0.dot D.perp = -(v0.cross v1) := by rw [hD]; simp only [V2.cross, V2.dot, V2.sub, V2.perp]; ring
    have cr : ∀ u w : V2 K, u.cross w * D.lengthSq = u.dot D * w.dot D.perp - u.dot D.perp * w.dot D := by
      intro u w; simp only [V2.cross, V2.dot, V2.perp, V2.lengthSq]; ring
    have posc : ∀ u w : V2 K, 0 < u.dot D * w.dot D.perp - u.dot D.perp * w.dot D → 0 < u.cross w := by
      intro u w h
      rw [← cr] at h
      exact (mul_pos_iff_of_pos_right hL).1 h
    have hyp : (At v0 v1 r).dot D.perp < p.dot D.perp := by rw [← hy0]; exact hax.1
    have hqneg : (At v0 v1 r).dot D.perp < 0 := by
      rcases lt_or_eq_of_le (by rw [← hy0, hyc]; linarith : (At v0 v1 r).dot D.perp ≤ 0) with h | h
      · exact h
      · exfalso
        apply hin
        rw [h] at hyp hy0 hy1
        refine ⟨posc _ _ ?_, posc _ _ ?_⟩
        · rw [hy0, hx0]; nlinarith
        · rw [hy1, hx1]; nlinarith
    rcases le_total (p.dot D) 0 with hpx | hpx
    · right
      refine nearer_axis p v1 _ D D.perp _ hL (fun u => by simp only [V2.lengthSq, V2.dot, V2.perp]; ring) hq hyp hpx (by rw [hx1]; exact px1) hy1 ?_
      by_contra hn'
      rw [not_le] at hn'
      have k2 : 0 < v1.cross p := posc _ _ (by linarith)
      have hpy : 0 < p.dot D.perp := by
        by_contra hn2
        have := mul_nonneg (neg_nonneg.2 (not_lt.1 hn2)) (by rw [hx1]; exact px1.le : 0 ≤ v1.dot D)
        have := mul_nonneg_of_nonpos_of_nonpos (by rw [hy1]; exact hqneg.le : v1.dot D.perp ≤ 0) hpx
        linarith
      have k1 : 0 < p.cross v0 := posc _ _ (by
        rw [hx0]
        have := mul_nonneg_of_nonpos_of_nonpos hpx (by rw [hy0]; exact hqneg.le : v0.dot D.perp ≤ 0)
        have := mul_pos hpy px0
        linarith)
      exact hin ⟨k1, k2⟩
    · left
      rw [closestDist_comm]
      have dneg : ∀ u : V2 K, u.dot D.neg = -(u.dot D) := by intro u; simp only [V2.dot, V2.neg]; ring
      refine nearer_axis p v0 _ D.neg D.perp _ hL (fun u => by simp only [V2.lengthSq, V2.dot, V2.perp, V2.neg]; ring) (by rw [dneg, hq, neg_zero]) hyp
        (by rw [dneg]; linarith) (by rw [dneg, hx0]; linarith) hy0 ?_
      rw [dneg, dneg]
      by_contra hn'
      rw [not_le] at hn'
      have k1 : 0 < p.cross v0 := posc _ _ (by linarith)
      have hpy : 0 < p.dot D.perp := by
        by_contra hn2
        have := mul_nonneg (neg_nonneg.2 (not_lt.1 hn2)) (by rw [hx0]; linarith : 0 ≤ -(v0.dot D))
        have := mul_nonneg (neg_nonneg.2 (by rw [hy0]; exact hqneg.le : v0.dot D.perp ≤ 0)) hpx
        linarith
      have k2 : 0 < v1.cross p := posc _ _ (by
        rw [hx1]
        have := mul_nonneg (neg_nonneg.2 (by rw [hy1]; exact hqneg.le : v1.dot D.perp ≤ 0)) hpx
        have := mul_pos hpy px1
        linarith)
      exact hin ⟨k1, k2⟩
  · rw [if_neg ht] at hn
    rcases tm.lt_or_eq with g0 | g0
    · have g1 : closestT v0 v1 = 1 := le_antisymm tM (not_lt.1 (fun h => ht ⟨g0, h⟩))
      have e : lerpT v0 v1 (closestT v0 v1) = v1 := by rw [g1, lerpT_at]; simp only [At]; ext <;> simp only <;> ring
      right
      have hcd : closestDist v0 v1 = v1.lengthSq := by rw [closestDist, e]
      rw [hcd, closestDist_comm]
      apply nearer_end
      rw [hn, e] at hax
      have := hax.2
      simp only [V2.dot, V2.neg] at this ⊢
      linarith
    · have e : lerpT v0 v1 (closestT v0 v1) = v0 := by rw [← g0, lerpT_at]; simp only [At]; ext <;> simp only <;> ring
      left
      have hcd : closestDist v0 v1 = v0.lengthSq := by rw [closestDist, e]
      rw [hcd]
      apply nearer_end
      rw [hn, e] at hax
      have := hax.1
      simp only [V2.dot, V2.neg] at this ⊢
      linarith

/-! ## Counting the iterations -/

open Classical in
/-- The differences of corners. -/
noncomputable def diffs (ctx : Ctx K) : Finset (V2 K) :=
  ((corners ctx.s1).toFinset ×ˢ (corners ctx.s2).toFinset).image fun ab => ab.2.sub ab.1

open Classical in
/-- The distances of the segments between two different points of a set. -/
noncomputable def sideDists (R : Finset (V2 K)) : Finset K :=
  (R.offDiag.image Sym2.mk.uncurry).image (Sym2.lift ⟨closestDist, closestDist_comm⟩)

theorem diffs_card (ctx : Ctx K) : (diffs ctx).card ≤ (corners ctx.s1).length * (corners ctx.s2).length := by
  classical
  refine Finset.card_image_le.trans ?_
  rw [Finset.card_product]
  exact Nat.mul_le_mul (List.toFinset_card_le _) (List.toFinset_card_le _)

theorem mok_diffs (ctx : Ctx K) (v : MPoint K) (h : MOk ctx v) : v.ab ∈ diffs ctx := by
  classical
  exact Finset.mem_image.2 ⟨(v.a, v.b), Finset.mem_product.2 ⟨List.mem_toFinset.2 h.1, List.mem_toFinset.2 h.2.1⟩, h.2.2.symm⟩

theorem sideDists_card (R : Finset (V2 K)) : (sideDists R).card ≤ R.card.choose 2 := by
  classical
  refine Finset.card_image_le.trans ?_
  rw [Sym2.card_image_offDiag]

theorem mem_sideDists (R : Finset (V2 K)) (v w : V2 K) (hv : v ∈ R) (hw : w ∈ R) (hne : v ≠ w) : closestDist v w ∈ sideDists R := by
  classical
  exact Finset.mem_image.2 ⟨s(v, w), Finset.mem_image.2 ⟨(v, w), Finset.mem_offDiag.2 ⟨hv, hw, hne⟩, rfl⟩, rfl⟩

/-- The number of sides that are nearer. -/
noncomputable def nearerSides (R : Finset (V2 K)) (d : K) : Nat := ((sideDists R).filter (· < d)).card

theorem nearerSides_lt (R : Finset (V2 K)) (d e : K) (he : e ∈ sideDists R) (h : e < d) : nearerSides R e < nearerSides R d := by
  refine Finset.card_lt_card ⟨fun x hx => ?_, fun hs => ?_⟩
  · rw [Finset.mem_filter] at hx ⊢; exact ⟨hx.1, hx.2.trans h⟩
  · have := hs (Finset.mem_filter.2 ⟨he, h⟩)
    rw [Finset.mem_filter] at this
    exact lt_irrefl _ this.2

theorem nearerSides_le (R : Finset (V2 K)) (d : K) : nearerSides R d ≤ R.card.choose 2 :=
  (Finset.card_filter_le _ _).trans (sideDists_card R)

theorem epa_ne (M : Mth K) (inf : K) (ctx : Ctx K) (fuel : Nat) : ∀ hull, (epaRecurse M inf ctx fuel hull).2 ≠ .gjkLimit := by
  induction fuel with
  | zero => intro hull; rw [epaRecurse]; split <;> simp
  | succ fuel ih =>
    intro hull
    rw [epaRecurse]
    split
    · exact ih _
    · simp

/-- The direction GJK looks in. -/
def gjkAxis (v0 v1 : V2 K) : V2 K :=
  if -1 < closestT v0 v1 ∧ closestT v0 v1 < 1 then (v1.sub v0).perp else (lerpT v0 v1 (closestT v0 v1)).neg

/-- Looking in no direction at all ends the search: the origin is an end of the current side. -/
theorem gjkAxis_zero (v0 v1 p : V2 K) (hz : gjkAxis v0 v1 = V2.zero) :
    ¬ (0 < p.cross v0 ∧ 0 < v1.cross p) ∧ checkAxis v0 v1 p (gjkAxis v0 v1) = true := by
  refine ⟨?_, by rw [hz]; simp [checkAxis, V2.dot, V2.zero]⟩
  unfold gjkAxis at hz
  obtain ⟨tm, tM⟩ := closestT_mem v0 v1
  obtain ⟨s1, -, -⟩ := closestT_spec v0 v1
  by_cases ht : -1 < closestT v0 v1 ∧ closestT v0 v1 < 1
  · rw [if_pos ht] at hz
    exfalso
    apply (s1 ht.1 ht.2).1
    simp only [V2.perp, V2.sub, V2.zero, V2.mk.injEq, V2.lengthSq, V2.dot] at hz ⊢
    have h1 : v1.y - v0.y = 0 := by linarith [hz.1]
    rw [hz.2, h1]; ring
  · rw [if_neg ht] at hz
    have hz' : lerpT v0 v1 (closestT v0 v1) = V2.zero := by
      simp only [V2.neg, V2.zero, V2.mk.injEq, neg_eq_zero] at hz
      ext
      · exact hz.1
      · exact hz.2
    rintro ⟨h1, h2⟩
    rcases tm.lt_or_eq with g0 | g0
    · have g1 : closestT v0 v1 = 1 := le_antisymm tM (not_lt.1 (fun h => ht ⟨g0, h⟩))
      have e : lerpT v0 v1 (closestT v0 v1) = v1 := by rw [g1, lerpT_at]; simp only [At]; ext <;> simp only <;> ring
      rw [← e, hz'] at h2
      simp [V2.cross, V2.zero] at h2
    · have e : lerpT v0 v1 (closestT v0 v1) = v0 := by rw [← g0, lerpT_at]; simp only [At]; ext <;> simp only <;> ring
      rw [← e, hz'] at h1
      simp [V2.cross, V2.zero] at h1

/-- One run of GJK over points with a property `P`, which lie in the set `R`. What holds when EPA takes over holds of the result. -/
theorem gjkRecurse_runs (M : Mth K) (inf : K) (ctx : Ctx K) (R : Finset (V2 K)) (P : MPoint K → Prop) (hR : ∀ v, P v → v.ab ∈ R)
    (hP : ∀ v0 v1 : MPoint K, P v0 → P v1 → gjkAxis v0.ab v1.ab ≠ V2.zero → P (ctx.support inf (gjkAxis v0.ab v1.ab)))
    (Q : Closest K × Stop → Prop) (hQ : ∀ v0 p v1, P v0 → P p → P v1 → 0 ≤ v0.ab.cross v1.ab → 0 < p.ab.cross v0.ab → 0 < v1.ab.cross p.ab → Q (epa M inf ctx v0 p v1))
    (fuel : Nat) : ∀ w0 w1 : MPoint K, P w0 → P w1 →
    (nearerSides R (closestDist w0.ab w1.ab) < fuel → (gjkRecurse M inf ctx fuel w0 w1).2 ≠ .gjkLimit) ∧
    ((gjkRecurse M inf ctx fuel w0 w1).2 = .gjkDone ∨ (gjkRecurse M inf ctx fuel w0 w1).2 = .gjkLimit ∨ Q (gjkRecurse M inf ctx fuel w0 w1)) := by
  induction fuel with
  | zero => intro w0 w1 _ _; exact ⟨fun h => absurd h (Nat.not_lt_zero _), Or.inr (Or.inl rfl)⟩
  | succ fuel ih =>
    intro w0 w1 h0 h1
    rw [gjkRecurse]
    have hcr : 0 ≤ (if pointGreater w1.ab w0.ab V2.zero = true then w1 else w0).ab.cross
        (if pointGreater w1.ab w0.ab V2.zero = true then w0 else w1).ab := by
      split
      · rename_i h; exact le_of_lt ((pointGreater_zero _ _).1 h)
      · rename_i h
        rw [pointGreater_zero] at h
        simp only [V2.cross] at *; linarith
    have hd : closestDist (if pointGreater w1.ab w0.ab V2.zero = true then w1 else w0).ab
        (if pointGreater w1.ab w0.ab V2.zero = true then w0 else w1).ab = closestDist w0.ab w1.ab := by
      split
      · exact closestDist_comm _ _
      · rfl
    have m0 : P (if pointGreater w1.ab w0.ab V2.zero = true then w1 else w0) := by split <;> assumption
    have m1 : P (if pointGreater w1.ab w0.ab V2.zero = true then w0 else w1) := by split <;> assumption
    generalize (if pointGreater w1.ab w0.ab V2.zero = true then w1 else w0) = v0 at *
    generalize (if pointGreater w1.ab w0.ab V2.zero = true then w0 else w1) = v1 at *
    have hn : (if -1 < closestT v0.ab v1.ab ∧ closestT v0.ab v1.ab < 1 then (v1.ab.sub v0.ab).perp
      else (lerpT v0.ab v1.ab (closestT v0.ab v1.ab)).neg) = gjkAxis v0.ab v1.ab := rfl
    rw [hn]
    have mp := hP v0 v1 m0 m1
    have hz := fun h => gjkAxis_zero v0.ab v1.ab (ctx.support inf (gjkAxis v0.ab v1.ab)).ab h
    have hn' := hn.symm
    generalize gjkAxis v0.ab v1.ab = n at *
    generalize ctx.support inf n = p at *
    split
    · rename_i hin
      rw [Bool.and_eq_true, pointGreater_zero, pointGreater_zero] at hin
      have hnz : n ≠ V2.zero := fun h => (hz h).1 hin
      exact ⟨fun _ => epa_ne _ _ _ _ _, Or.inr (Or.inr (hQ v0 p v1 m0 (mp hnz) m1 hcr hin.1 hin.2))⟩
    · rename_i hin
      split
      · exact ⟨by simp, Or.inl rfl⟩
      · rename_i hax
        have hnz : n ≠ V2.zero := fun h => hax (hz h).2
        have mp := mp hnz
        rw [Bool.and_eq_true, pointGreater_zero, pointGreater_zero] at hin
        obtain ⟨n0, n1, hlt⟩ := gjk_nearer v0.ab v1.ab p.ab n hcr hn' hin (by simpa using hax)
        rw [← hd]
        split
        · rename_i hl
          rw [min_eq_left hl.le] at hlt
          obtain ⟨i1, i2⟩ := ih v0 p m0 mp
          refine ⟨fun hf => i1 ?_, i2⟩
          have := nearerSides_lt R _ _ (mem_sideDists R _ _ (hR v0 m0) (hR p mp) n0.symm) hlt
          omega
        · rename_i hl
          rw [min_eq_right (not_lt.1 hl)] at hlt
          obtain ⟨i1, i2⟩ := ih p v1 mp m1
          refine ⟨fun hf => i1 ?_, i2⟩
          have := nearerSides_lt R _ _ (mem_sideDists R _ _ (hR p mp) (hR v1 m1) n1) hlt
          omega

/-! ## EPA: every point found is new

The chain of EPA runs clockwise round the origin. As long as all its points lie on the rim of the difference, no point already seen lies beyond any of its edges. -/

/-- A point on the rim: no point of the difference is farther in some direction in which the point is ahead of the origin. -/
def Rim (ctx : Ctx K) (s : V2 K) : Prop :=
  InDiff ctx.s1 ctx.s2 s ∧ ∃ n : V2 K, 0 < s.dot n ∧ ∀ x, InDiff ctx.s1 ctx.s2 x → x.dot n ≤ s.dot n

/-- `s` lies beyond the edge from `x` to `y`. -/
def Past (x y s : V2 K) : Prop := y.cross x < y.cross s + s.cross x

theorem pointGreater_past (x y s : V2 K) : pointGreater x y s = true ↔ Past x y s := by
  rw [pointGreater_iff, Past]
  simp only [V2.perp, V2.dot, V2.sub, V2.cross]
  constructor <;> intro h <;> linarith

/-- A point beyond an edge between two points of the rim lies within the angle of the edge. -/
theorem past_cone (ctx : Ctx K) (x y s : V2 K) (hx : Rim ctx x) (hy : Rim ctx y) (hs : Rim ctx s) (hc : 0 < y.cross x) (h : Past x y s) :
    0 < y.cross s ∧ 0 < s.cross x := by
  have comb : ∀ n : V2 K, y.cross x * s.dot n = y.cross s * x.dot n + s.cross x * y.dot n := by
    intro n; simp only [V2.cross, V2.dot]; ring
  unfold Past at h
  obtain ⟨dx, n, n0, nm⟩ := hx
  obtain ⟨dy, m, m0, mm⟩ := hy
  constructor
  · by_contra hn
    have e := comb m
    have a := mm _ dx
    have b := mm _ hs.1
    have h1 := mul_le_mul_of_nonpos_left a (not_lt.1 hn)
    have h2 := mul_le_mul_of_nonneg_left b hc.le
    have h3 := mul_lt_mul_of_pos_right h m0
    linarith
  · by_contra hn
    have e := comb n
    have a := nm _ dy
    have b := nm _ hs.1
    have h1 := mul_le_mul_of_nonpos_left a (not_lt.1 hn)
    have h2 := mul_le_mul_of_nonneg_left b hc.le
    have h3 := mul_lt_mul_of_pos_right h n0
    linarith

/-- An edge passed clockwise with no seen point beyond it. -/
def EdgeFine (S : Finset (V2 K)) (x y : V2 K) : Prop := 0 < y.cross x ∧ ∀ s ∈ S, ¬ Past x y s

def PathFine (S : Finset (V2 K)) : V2 K → List (V2 K) → Prop
  | _, [] => True
  | a, b :: l => EdgeFine S a b ∧ PathFine S b l

def RingFine (S : Finset (V2 K)) : List (V2 K) → Prop
  | [] => True
  | a :: l => PathFine S a (l ++ [a])

theorem pathFine_append (S : Finset (V2 K)) (l m : List (V2 K)) : ∀ a, PathFine S a (l ++ m) ↔ PathFine S a l ∧ PathFine S ((a :: l).getLast (by simp)) m := by
  induction l with
  | nil => intro a; simp [PathFine]
  | cons b l ih => intro a; simp only [List.cons_append, PathFine, ih b]; rw [List.getLast_cons (l := b :: l) (List.cons_ne_nil b l), and_assoc]

theorem ringFine_rotate_one (S : Finset (V2 K)) (l : List (V2 K)) : RingFine S (l.rotate 1) ↔ RingFine S l := by
  cases l with
  | nil => rfl
  | cons a l =>
    rw [List.rotate_cons_succ, List.rotate_zero]
    cases l with
    | nil => rfl
    | cons b l =>
      simp only [List.cons_append, RingFine, PathFine]
      rw [pathFine_append S (l ++ [a]) [b]]
      simp only [PathFine, and_true]
      have : (b :: (l ++ [a])).getLast (by simp) = a := by simp
      rw [this]; exact and_comm

theorem ringFine_rotate (S : Finset (V2 K)) (l : List (V2 K)) (n : Nat) : RingFine S (l.rotate n) ↔ RingFine S l := by
  induction n with
  | zero => simp
  | succ n ih => rw [← List.rotate_rotate, ringFine_rotate_one, ih]

/-- Splitting the angle of an edge splits its count. -/
theorem crossing_split (u x m y : V2 K) (h1 : 0 < m.cross x) (h2 : 0 < y.cross m) (h3 : 0 < y.cross x) :
    crossing u x m + crossing u m y = crossing u x y := by
  rw [crossing_pos h1, crossing_pos h2, crossing_pos h3]
  have e : y.cross x * m.cross u = y.cross m * x.cross u + m.cross x * y.cross u := by simp only [V2.cross]; ring
  rcases le_or_gt (x.cross u) 0 with hx | hx <;> rcases le_or_gt (m.cross u) 0 with hm | hm <;> rcases le_or_gt (y.cross u) 0 with hy | hy
  all_goals first
    | (simp [hx, hm, hy, not_le.2, not_lt.2]; done)
    | (exfalso
       first
       | (have a1 := mul_pos h3 hm
          have a2 := mul_nonneg h2.le (neg_nonneg.2 hx)
          have a3 := mul_nonneg h1.le (neg_nonneg.2 hy)
          linarith)
       | (have a1 := mul_nonneg h3.le (neg_nonneg.2 hm)
          have a2 := mul_pos h2 hx
          have a3 := mul_pos h1 hy
          linarith))

theorem crossing_cone {u x y : V2 K} (h : 0 < y.cross x) (h1 : 0 < y.cross u) (h2 : 0 < u.cross x) : crossing u x y = 1 := by
  rw [crossing_pos h, if_pos]
  refine ⟨?_, h1⟩
  have : x.cross u = -(u.cross x) := by simp only [V2.cross]; ring
  rw [this]; linarith

theorem crossing_nonneg {u x y : V2 K} (h : 0 < y.cross x) : 0 ≤ crossing u x y := by
  rw [crossing_pos h]; split <;> simp

theorem pathFine_count (S : Finset (V2 K)) (u : V2 K) (l : List (V2 K)) : ∀ a, PathFine S a l → 0 ≤ pathCount u a l := by
  induction l with
  | nil => intro a _; simp [pathCount]
  | cons b l ih =>
    intro a h
    simp only [pathCount]
    have := crossing_nonneg (u := u) h.1.1
    have := ih b h.2
    omega

/-- The edges not turned towards the new point keep their property. -/
theorem pathFine_insert [DecidableEq (V2 K)] (ctx : Ctx K) (S : Finset (V2 K)) (p : V2 K) (hp : Rim ctx p) (l : List (V2 K)) : ∀ a, Rim ctx a → (∀ x ∈ l, Rim ctx x) →
    PathFine S a l → pathCount p a l ≤ 0 → PathFine (insert p S) a l := by
  induction l with
  | nil => intro a _ _ _ _; trivial
  | cons b l ih =>
    intro a ha hl h hc
    simp only [pathCount] at hc
    have h1 := crossing_nonneg (u := p) h.1.1
    have h2 := pathFine_count S p l b h.2
    have hb := hl b List.mem_cons_self
    refine ⟨⟨h.1.1, fun s hs => ?_⟩, ih b hb (fun x hx => hl x (List.mem_cons_of_mem _ hx)) h.2 (by omega)⟩
    rcases Finset.mem_insert.1 hs with rfl | hs
    · intro hpast
      obtain ⟨c1, c2⟩ := past_cone ctx a b s ha hb hp h.1.1 hpast
      have := crossing_cone h.1.1 c1 c2
      omega
    · exact h.1.2 s hs

/-- Leaving out a point which is not beyond the edge that replaces it. -/
theorem edgeFine_drop (ctx : Ctx K) (S : Finset (V2 K)) (hS : ∀ s ∈ S, Rim ctx s) (x m y : V2 K) (hx : Rim ctx x) (hm : Rim ctx m) (hy : Rim ctx y)
    (h1 : EdgeFine S x m) (h2 : EdgeFine S m y) (hd : ¬ Past x y m) : EdgeFine S x y := by
  have hd' : y.cross m + m.cross x ≤ y.cross x := not_lt.1 hd
  have h3 : 0 < y.cross x := lt_of_lt_of_le (by linarith [h1.1, h2.1]) hd'
  refine ⟨h3, fun s hs hp => ?_⟩
  obtain ⟨c1, c2⟩ := past_cone ctx x y s hx hy (hS s hs) h3 hp
  unfold Past at hp
  rcases le_total 0 (m.cross s) with hc | hc
  · have a : m.cross s + s.cross x ≤ m.cross x := not_lt.1 (h1.2 s hs)
    have e : m.cross x * (y.cross s + s.cross x) = m.cross s * y.cross x + s.cross x * (y.cross m + m.cross x) := by simp only [V2.cross]; ring
    have b1 := mul_lt_mul_of_pos_left hp h1.1
    have b2 := mul_le_mul_of_nonneg_left hd' c2.le
    have b3 := mul_le_mul_of_nonneg_right a h3.le
    linarith
  · have a : y.cross s + s.cross m ≤ y.cross m := not_lt.1 (h2.2 s hs)
    have e : y.cross m * (y.cross s + s.cross x) = y.cross s * (y.cross m + m.cross x) + s.cross m * y.cross x := by simp only [V2.cross]; ring
    have hsm : s.cross m = -(m.cross s) := by simp only [V2.cross]; ring
    have b1 := mul_lt_mul_of_pos_left hp h2.1
    have b2 := mul_le_mul_of_nonneg_left hd' c1.le
    have b3 := mul_le_mul_of_nonneg_right a h3.le
    linarith

theorem rebuild_fine (ctx : Ctx K) (S : Finset (V2 K)) (hS : ∀ s ∈ S, Rim ctx s) (p : MPoint K) (hp : Rim ctx p.ab) (l : List (MPoint K)) : ∀ h0 : MPoint K,
    Rim ctx h0.ab → (∀ x ∈ l, Rim ctx x.ab) → PathFine S h0.ab (l.map MPoint.ab ++ [p.ab]) →
    PathFine S h0.ab ((epaRebuild p h0 l).map MPoint.ab ++ [p.ab]) ∧
      ∀ u, pathCount u h0.ab ((epaRebuild p h0 l).map MPoint.ab ++ [p.ab]) = pathCount u h0.ab (l.map MPoint.ab ++ [p.ab]) := by
  induction l with
  | nil => intro h0 _ _ h; exact ⟨h, fun _ => rfl⟩
  | cons h1 l ih =>
    intro h0 r0 hl h
    have r1 := hl h1 List.mem_cons_self
    have hl' : ∀ x ∈ l, Rim ctx x.ab := fun x hx => hl x (List.mem_cons_of_mem _ hx)
    simp only [epaRebuild]
    split
    · simp only [List.map_cons, List.cons_append, PathFine, pathCount] at h ⊢
      obtain ⟨i1, i2⟩ := ih h1 r1 hl' h.2
      exact ⟨⟨h.1, i1⟩, fun u => by rw [i2 u]⟩
    · rename_i hg
      rw [pointGreater_past] at hg
      cases l with
      | nil =>
        simp only [List.map_cons, List.map_nil, List.cons_append, List.nil_append, PathFine, and_true, List.headD_nil] at h hg
        have hf := edgeFine_drop ctx S hS _ _ _ r0 r1 hp h.1 h.2 hg
        obtain ⟨i1, i2⟩ := ih h0 r0 hl' ⟨hf, trivial⟩
        refine ⟨i1, fun u => ?_⟩
        rw [i2 u]
        simp only [List.map_cons, List.map_nil, List.cons_append, List.nil_append, pathCount]
        have := crossing_split u h0.ab h1.ab p.ab h.1.1 h.2.1 hf.1
        omega
      | cons h2 l =>
        simp only [List.map_cons, List.cons_append, PathFine, List.headD_cons] at h hg
        have hf := edgeFine_drop ctx S hS _ _ _ r0 r1 (hl' h2 List.mem_cons_self) h.1 h.2.1 hg
        obtain ⟨i1, i2⟩ := ih h0 r0 hl' ⟨hf, h.2.2⟩
        refine ⟨i1, fun u => ?_⟩
        rw [i2 u]
        simp only [List.map_cons, List.cons_append, pathCount]
        have := crossing_split u h0.ab h1.ab h2.ab h.1.1 h.2.1.1 hf.1
        omega

/-- The two edges that replace one with a point beyond it. -/
theorem edgeFine_split [DecidableEq (V2 K)] (ctx : Ctx K) (S : Finset (V2 K)) (hS : ∀ s ∈ S, Rim ctx s) (x y p : V2 K) (hx : Rim ctx x) (hy : Rim ctx y) (hp : Rim ctx p)
    (h : EdgeFine S x y) (hpast : Past x y p) : EdgeFine (insert p S) x p ∧ EdgeFine (insert p S) p y := by
  obtain ⟨c1, c2⟩ := past_cone ctx x y p hx hy hp h.1 hpast
  have zz : ∀ v : V2 K, v.cross v = 0 := by intro v; simp only [V2.cross]; ring
  have hp' : y.cross x < y.cross p + p.cross x := hpast
  refine ⟨⟨c2, fun s hs hps => ?_⟩, ⟨c1, fun s hs hps => ?_⟩⟩
  · rcases Finset.mem_insert.1 hs with rfl | hs
    · unfold Past at hps; rw [zz] at hps; linarith
    · obtain ⟨d1, d2⟩ := past_cone ctx x p s hx hp (hS s hs) c2 hps
      have a : y.cross s + s.cross x ≤ y.cross x := not_lt.1 (h.2 s hs)
      unfold Past at hps
      have e : p.cross x * (y.cross s + s.cross x) = p.cross s * y.cross x + s.cross x * (y.cross p + p.cross x) := by simp only [V2.cross]; ring
      have b1 := mul_le_mul_of_nonneg_left a c2.le
      have b2 := mul_lt_mul_of_pos_left hp' d2
      have b3 := mul_lt_mul_of_pos_right hps h.1
      linarith
  · rcases Finset.mem_insert.1 hs with rfl | hs
    · unfold Past at hps; rw [zz] at hps; linarith
    · obtain ⟨d1, d2⟩ := past_cone ctx p y s hp hy (hS s hs) c1 hps
      have a : y.cross s + s.cross x ≤ y.cross x := not_lt.1 (h.2 s hs)
      unfold Past at hps
      have e : y.cross p * (y.cross s + s.cross x) = y.cross s * (y.cross p + p.cross x) + s.cross p * y.cross x := by simp only [V2.cross]; ring
      have b1 := mul_le_mul_of_nonneg_left a c1.le
      have b2 := mul_lt_mul_of_pos_left hp' d1
      have b3 := mul_lt_mul_of_pos_right hps h.1
      linarith

/-- The state of EPA's loop: a chain once round the origin, of points seen, all on the rim, with no point seen beyond any edge. -/
structure EpaInv (ctx : Ctx K) (R S : Finset (V2 K)) (hull : List (MPoint K)) : Prop where
  ne : hull ≠ []
  ok : ∀ v ∈ hull, MOk ctx v
  mem : ∀ v ∈ hull, v.ab ∈ S
  sub : S ⊆ R
  rim : ∀ s ∈ S, Rim ctx s
  fine : RingFine S (hull.map MPoint.ab)
  once : ∀ u, u ≠ V2.zero → ringCount u (hull.map MPoint.ab) ≤ 1

theorem rim_ne {ctx : Ctx K} {s : V2 K} (h : Rim ctx s) : s ≠ V2.zero := by
  rintro rfl
  obtain ⟨-, n, h0, -⟩ := h
  simp [V2.dot, V2.zero] at h0

/-- The edge after a point of the chain. -/
theorem ring_edge (ctx : Ctx K) (R S : Finset (V2 K)) (hull : List (MPoint K)) (h : EpaInv ctx R S hull) (m : Nat) (hm : m < hull.length) :
    EdgeFine S (hullAt hull m).ab (hullAt hull ((m + 1) % hull.length)).ab := by
  obtain ⟨mid, e1, e2⟩ := rotate_ends hull m hm
  have hf := (ringFine_rotate S (hull.map MPoint.ab) (m + 1)).2 h.fine
  rw [← List.map_rotate, e1] at hf
  rw [e1] at e2
  generalize hullAt hull m = v0 at *
  generalize hullAt hull ((m + 1) % hull.length) = v1 at *
  simp only [List.map_cons, RingFine] at hf
  rw [pathFine_append] at hf
  have hl : ((v1.ab :: mid.map MPoint.ab).getLast (by simp)) = v0.ab := by
    have : (v1 :: mid).getLast (by simp) = v0 := by
      rw [List.getLast?_eq_getLast_of_ne_nil (by simp)] at e2
      exact Option.some.inj e2
    rw [← this]
    exact List.getLast_map (f := MPoint.ab) (l := v1 :: mid) (by simp)
  rw [hl] at hf
  exact hf.2.1

theorem epaInv_step [DecidableEq (V2 K)] (ctx : Ctx K) (R S : Finset (V2 K)) (hull : List (MPoint K)) (h : EpaInv ctx R S hull) (m : Nat) (hm : m < hull.length) (p : MPoint K)
    (hpR : p.ab ∈ R) (mp : MOk ctx p) (rp : Rim ctx p.ab) (hg : pointGreater (hullAt hull m).ab (hullAt hull ((m + 1) % hull.length)).ab p.ab = true) :
    EpaInv ctx R (insert p.ab S) (p :: epaRebuild p p (hull.rotate (m + 1))) ∧ p.ab ∉ S := by
  have hedge := ring_edge ctx R S hull h m hm
  rw [pointGreater_past] at hg
  refine ⟨?_, fun hmem => hedge.2 _ hmem hg⟩
  have hm' : (m + 1) % hull.length < hull.length := Nat.mod_lt _ (List.length_pos_iff.2 h.ne)
  have r0 := h.rim _ (h.mem _ (hullAt_mem _ _ hm))
  have r1 := h.rim _ (h.mem _ (hullAt_mem _ _ hm'))
  obtain ⟨mid, e1, e2⟩ := rotate_ends hull m hm
  have hf := (ringFine_rotate S (hull.map MPoint.ab) (m + 1)).2 h.fine
  have hcnt : ∀ u, u ≠ V2.zero → ringCount u ((hull.map MPoint.ab).rotate (m + 1)) ≤ 1 := fun u hu => by
    rw [ringCount_rotate]; exact h.once u hu
  have hrot : ∀ v ∈ hull.rotate (m + 1), Rim ctx v.ab := fun v hv => h.rim _ (h.mem _ (List.mem_rotate.1 hv))
  rw [← List.map_rotate, e1] at hf
  simp only [← List.map_rotate] at hcnt
  have rim' : ∀ s ∈ insert p.ab S, Rim ctx s := by
    intro s hs
    rcases Finset.mem_insert.1 hs with rfl | hs
    · exact rp
    · exact h.rim s hs
  have hpath : PathFine (insert p.ab S) p.ab ((hull.rotate (m + 1)).map MPoint.ab ++ [p.ab]) ∧
      ∀ u, pathCount u p.ab ((hull.rotate (m + 1)).map MPoint.ab ++ [p.ab]) = ringCount u ((hull.rotate (m + 1)).map MPoint.ab) := by
    rw [e1] at e2 hrot hcnt ⊢
    generalize hullAt hull m = v0 at *
    generalize hullAt hull ((m + 1) % hull.length) = v1 at *
    have hl : ((v1.ab :: mid.map MPoint.ab).getLast (by simp)) = v0.ab := by
      have : (v1 :: mid).getLast (by simp) = v0 := by
        rw [List.getLast?_eq_getLast_of_ne_nil (by simp)] at e2
        exact Option.some.inj e2
      rw [← this]
      exact List.getLast_map (f := MPoint.ab) (l := v1 :: mid) (by simp)
    obtain ⟨s1, s2⟩ := edgeFine_split ctx S h.rim v0.ab v1.ab p.ab r0 r1 rp hedge hg
    simp only [List.map_cons, RingFine] at hf
    rw [pathFine_append, hl] at hf
    simp only [PathFine, and_true] at hf
    have hcount : ∀ u, ringCount u ((v1 :: mid).map MPoint.ab) = pathCount u v1.ab (mid.map MPoint.ab) + crossing u v0.ab v1.ab := by
      intro u
      simp only [List.map_cons, ringCount]
      rw [pathCount_append, hl]
      simp only [pathCount]; ring
    obtain ⟨c1, c2⟩ := past_cone ctx _ _ _ r0 r1 rp hedge.1 hg
    refine ⟨?_, fun u => ?_⟩
    · simp only [List.map_cons, List.cons_append, PathFine]
      rw [pathFine_append, hl]
      simp only [PathFine, and_true]
      refine ⟨s2, pathFine_insert ctx S p.ab rp _ _ r1 ?_ hf.1 ?_, s1⟩
      · intro x hx
        obtain ⟨v, hv, rfl⟩ := List.mem_map.1 hx
        exact hrot v (List.mem_cons_of_mem _ hv)
      · have := hcnt p.ab (rim_ne rp)
        rw [hcount] at this
        have := crossing_cone hedge.1 c1 c2
        omega
    · rw [hcount]
      simp only [List.map_cons, List.cons_append, pathCount]
      rw [pathCount_append, hl]
      simp only [pathCount]
      have := crossing_split u v0.ab p.ab v1.ab s1.1 s2.1 hedge.1
      omega
  obtain ⟨b1, b2⟩ := rebuild_fine ctx (insert p.ab S) rim' p rp (hull.rotate (m + 1)) p rp hrot hpath.1
  have hmem : ∀ v ∈ p :: epaRebuild p p (hull.rotate (m + 1)), v = p ∨ v ∈ hull := by
    intro v hv
    rcases List.mem_cons.1 hv with rfl | hv
    · exact Or.inl rfl
    · exact Or.inr (List.mem_rotate.1 (epaRebuild_mem _ _ _ _ hv))
  refine ⟨by simp, ?_, ?_, ?_, rim', ?_, ?_⟩
  · intro v hv
    rcases hmem v hv with rfl | hv
    · exact mp
    · exact h.ok v hv
  · intro v hv
    rcases hmem v hv with rfl | hv
    · exact Finset.mem_insert_self _ _
    · exact Finset.mem_insert_of_mem (h.mem v hv)
  · intro s hs
    rcases Finset.mem_insert.1 hs with rfl | hs
    · exact hpR
    · exact h.sub hs
  · exact b1
  · intro u hu
    show pathCount u p.ab ((epaRebuild p p (hull.rotate (m + 1))).map MPoint.ab ++ [p.ab]) ≤ 1
    rw [b2 u, hpath.2 u]
    exact hcnt u hu

/-! ## EPA ends -/

/-- Two corner differences are within bounds that the support function can handle. -/
theorem mok_perp_bound (B : K) (ctx : Ctx K) (hw1 : Within B ctx.s1) (hw2 : Within B ctx.s2) (v0 v1 : MPoint K) (h0 : MOk ctx v0) (h1 : MOk ctx v1) :
    |(v1.ab.sub v0.ab).perp.x| ≤ 4 * B ∧ |(v1.ab.sub v0.ab).perp.y| ≤ 4 * B := by
  obtain ⟨b0x, b0y⟩ := mok_within B ctx hw1 hw2 v0 h0
  obtain ⟨b1x, b1y⟩ := mok_within B ctx hw1 hw2 v1 h1
  rw [abs_le] at b0x b0y b1x b1y
  simp only [V2.perp, V2.sub]
  rw [abs_le, abs_le]
  refine ⟨⟨?_, ?_⟩, ⟨?_, ?_⟩⟩ <;> linarith [b0y.1, b0y.2, b1y.1, b1y.2, b0x.1, b0x.2, b1x.1, b1x.2]

/-- The point found beyond an edge that does not pass the origin on the wrong side lies on the rim. -/
theorem support_rim (inf B : K) (ctx : Ctx K) (hs : Solid ctx) (hw1 : Within B ctx.s1) (hw2 : Within B ctx.s2) (hinf : 8 * (B * B) < inf)
    (v0 v1 : MPoint K) (h0 : MOk ctx v0) (h1 : MOk ctx v1) (hc : 0 ≤ v1.ab.cross v0.ab)
    (hg : pointGreater v0.ab v1.ab (ctx.support inf (v1.ab.sub v0.ab).perp).ab = true) : Rim ctx (ctx.support inf (v1.ab.sub v0.ab).perp).ab := by
  obtain ⟨bx, bY⟩ := mok_perp_bound B ctx hw1 hw2 v0 v1 h0 h1
  refine ⟨mok_diff ctx _ (support_ok inf ctx hs.1 hs.2 _), (v1.ab.sub v0.ab).perp, ?_, fun x hx => support_max inf B ctx hs.1 hs.2 _ hw1 hw2 bx bY hinf x hx⟩
  rw [pointGreater_iff] at hg
  have e : (v1.ab.sub v0.ab).perp.dot v0.ab = v1.ab.cross v0.ab := by simp only [V2.perp, V2.dot, V2.sub, V2.cross]; ring
  rw [e] at hg
  have : (ctx.support inf (v1.ab.sub v0.ab).perp).ab.dot (v1.ab.sub v0.ab).perp = (v1.ab.sub v0.ab).perp.dot (ctx.support inf (v1.ab.sub v0.ab).perp).ab := by
    simp only [V2.dot]; ring
  rw [this]; linarith

theorem cross_ne {x y : V2 K} (h : 0 < y.cross x) : x ≠ y := by
  rintro rfl
  simp only [V2.cross] at h
  linarith

theorem closest_normal_ne {M : Mth K} (hM : M.Lawful) (ctx : Ctx K) (v0 v1 : MPoint K) (h0 : MOk ctx v0) (h1 : MOk ctx v1) (hne : v0.ab ≠ v1.ab) :
    (v0.closestPoints M v1).n ≠ V2.zero := by
  rcases (closest_n hM ctx v0 v1 h0 h1).2 with h | h
  · intro e
    rw [e] at h
    simp [V2.lengthSq, V2.dot, V2.zero] at h
  · exact absurd h.2.2 hne

theorem perp_bounded (B : K) (ctx : Ctx K) (hw1 : Within B ctx.s1) (hw2 : Within B ctx.s2) (v0 v1 : MPoint K) (h0 : MOk ctx v0) (h1 : MOk ctx v1) (hne : v0.ab ≠ v1.ab) :
    Bounded B (v1.ab.sub v0.ab).perp := by
  refine ⟨fun e => hne ?_, mok_perp_bound B ctx hw1 hw2 v0 v1 h0 h1⟩
  simp only [V2.perp, V2.sub, V2.zero, V2.mk.injEq] at e
  exact V2.ext (by linarith [e.2]) (by linarith [e.1])

theorem epaRecurse_ends {M : Mth K} (hM : M.Lawful) (inf B : K) (ctx : Ctx K) (hs : Solid ctx) (hw1 : Within B ctx.s1) (hw2 : Within B ctx.s2) (hinf : 8 * (B * B) < inf)
    (R : Finset (V2 K)) (hRs : ∀ n, Bounded B n → (ctx.support inf n).ab ∈ R)
    (fuel : Nat) : ∀ (S : Finset (V2 K)) (hull : List (MPoint K)), EpaInv ctx R S hull → R.card ≤ S.card + fuel →
      (epaRecurse M inf ctx fuel hull).2 = .epaDone ∧ (epaRecurse M inf ctx fuel hull).1.n ≠ V2.zero := by
  classical
  induction fuel with
  | zero =>
    intro S hull h hf
    have hm := epaScan_lt inf hull h.ne
    have hm' : (epaScan inf hull + 1) % hull.length < hull.length := Nat.mod_lt _ (List.length_pos_iff.2 h.ne)
    have he := ring_edge ctx R S hull h _ hm
    have k0 := h.ok _ (hullAt_mem _ _ hm)
    have k1 := h.ok _ (hullAt_mem _ _ hm')
    rw [epaRecurse]
    split
    · rename_i hc
      exfalso
      obtain ⟨hi, hnew⟩ := epaInv_step ctx R S hull h _ hm _ (hRs _ (perp_bounded B ctx hw1 hw2 _ _ k0 k1 (cross_ne he.1))) (support_ok inf ctx hs.1 hs.2 _)
        (support_rim inf B ctx hs hw1 hw2 hinf _ _ k0 k1 he.1.le hc.2) hc.2
      have := Finset.card_le_card hi.sub
      rw [Finset.card_insert_of_notMem hnew] at this
      omega
    · exact ⟨rfl, closest_normal_ne hM ctx _ _ k0 k1 (cross_ne he.1)⟩
  | succ fuel ih =>
    intro S hull h hf
    have hm := epaScan_lt inf hull h.ne
    have hm' : (epaScan inf hull + 1) % hull.length < hull.length := Nat.mod_lt _ (List.length_pos_iff.2 h.ne)
    have he := ring_edge ctx R S hull h _ hm
    have k0 := h.ok _ (hullAt_mem _ _ hm)
    have k1 := h.ok _ (hullAt_mem _ _ hm')
    rw [epaRecurse]
    split
    · rename_i hc
      obtain ⟨hi, hnew⟩ := epaInv_step ctx R S hull h _ hm _ (hRs _ (perp_bounded B ctx hw1 hw2 _ _ k0 k1 (cross_ne he.1))) (support_ok inf ctx hs.1 hs.2 _)
        (support_rim inf B ctx hs hw1 hw2 hinf _ _ k0 k1 he.1.le hc.2) hc.2
      refine ih _ _ hi ?_
      rw [Finset.card_insert_of_notMem hnew]
      omega
    · exact ⟨rfl, closest_normal_ne hM ctx _ _ k0 k1 (cross_ne he.1)⟩

/-- A Minkowski point farthest in some direction. -/
def Far (ctx : Ctx K) (v : MPoint K) : Prop := MOk ctx v ∧ ∃ n : V2 K, n ≠ V2.zero ∧ ∀ x, InDiff ctx.s1 ctx.s2 x → x.dot n ≤ v.ab.dot n

/-- A vector perpendicular to two independent ones. -/
theorem dot_zero_of {a b n : V2 K} (hc : 0 < b.cross a) (ha : a.dot n = 0) (hb : b.dot n = 0) : n = V2.zero := by
  have e1 : b.cross a * n.x = a.y * b.dot n - b.y * a.dot n := by simp only [V2.cross, V2.dot]; ring
  have e2 : b.cross a * n.y = b.x * a.dot n - a.x * b.dot n := by simp only [V2.cross, V2.dot]; ring
  rw [ha, hb] at e1 e2
  simp only [mul_zero, sub_zero] at e1 e2
  ext
  · exact (mul_eq_zero.1 e1).resolve_left hc.ne'
  · exact (mul_eq_zero.1 e2).resolve_left hc.ne'

theorem side_zero (v0 p v1 : V2 K) (c0 : v0.cross v1 = 0) (c1 : 0 < p.cross v0) (c2 : 0 < v1.cross p) :
    closestDist v1 v0 = 0 ∧ ∃ k : K, 0 < k ∧ v1 = v0.scale (-k) := by
  have hsum : 0 < v1.cross p + p.cross v0 := by linarith
  refine ⟨?_, v1.cross p / p.cross v0, div_pos c2 c1, ?_⟩
  · have hle := closestDist_le v1 v0 (v1.cross p / (v1.cross p + p.cross v0)) (by positivity) ((div_le_one hsum).2 (by linarith))
    have e : At v1 v0 (v1.cross p / (v1.cross p + p.cross v0)) = V2.zero := by
      have hne := hsum.ne'
      generalize hD : v1.cross p + p.cross v0 = D at *
      simp only [V2.cross] at *
      ext
      · simp only [At, V2.zero]
        field_simp
        rw [← hD]
        linear_combination (-p.x) * c0
      · simp only [At, V2.zero]
        field_simp
        rw [← hD]
        linear_combination (-p.y) * c0
    rw [e] at hle
    have : (V2.zero : V2 K).lengthSq = 0 := by simp [V2.zero, V2.lengthSq, V2.dot]
    rw [this] at hle
    exact le_antisymm hle (lengthSq_nonneg _)
  · have hne := c1.ne'
    generalize hD : p.cross v0 = D at *
    ext
    · simp only [V2.scale]
      field_simp
      rw [← hD]
      simp only [V2.cross] at *
      linear_combination (-p.x) * c0
    · simp only [V2.scale]
      field_simp
      rw [← hD]
      simp only [V2.cross] at *
      linear_combination (-p.y) * c0

/-- When the origin lies on the first side, the chain through the point found beyond that side. -/
theorem quad_inv [DecidableEq (V2 K)] (ctx : Ctx K) (R : Finset (V2 K)) (p' v0 p v1 : MPoint K) (i' : p'.ab ∈ R) (i0 : v0.ab ∈ R) (i1 : p.ab ∈ R) (i2 : v1.ab ∈ R) (f0 : Far ctx v0) (f1 : Far ctx p) (f2 : Far ctx v1) (m' : MOk ctx p') (r' : Rim ctx p'.ab)
    (c0 : v0.ab.cross v1.ab = 0) (c1 : 0 < p.ab.cross v0.ab) (c2 : 0 < v1.ab.cross p.ab) (hg : pointGreater v1.ab v0.ab p'.ab = true) :
    EpaInv ctx R {p'.ab, v0.ab, p.ab, v1.ab} (p' :: epaRebuild p' p' [v0, p, v1]) ∧ ({p'.ab, v0.ab, p.ab, v1.ab} : Finset (V2 K)).card = 4 := by
  obtain ⟨-, k, hk, ek⟩ := side_zero v0.ab p.ab v1.ab c0 c1 c2
  have neg : ∀ a b : V2 K, a.cross b = -(b.cross a) := by intro a b; simp only [V2.cross]; ring
  rw [pointGreater_past, Past, c0] at hg
  have gv : ∀ u : V2 K, v1.ab.cross u = -(k * v0.ab.cross u) := by intro u; rw [ek]; simp only [V2.cross, V2.scale]; ring
  have c3 : 0 < v0.ab.cross p'.ab := by
    have : p'.ab.cross v1.ab = k * v0.ab.cross p'.ab := by rw [ek]; simp only [V2.cross, V2.scale]; ring
    rw [this] at hg
    exact (mul_pos_iff_of_pos_left (by linarith : 0 < 1 + k)).1 (by linarith)
  have c4 : 0 < p'.ab.cross v1.ab := by
    have : p'.ab.cross v1.ab = k * v0.ab.cross p'.ab := by rw [ek]; simp only [V2.cross, V2.scale]; ring
    rw [this]; exact mul_pos hk c3
  have rim : ∀ v : MPoint K, Far ctx v → Rim ctx v.ab := by
    rintro v ⟨mv, n, hn, hmax⟩
    refine ⟨mok_diff ctx v mv, n, ?_, hmax⟩
    by_contra hle
    have a0 := (hmax _ (mok_diff ctx v0 f0.1)).trans (not_lt.1 hle)
    have a1 := (hmax _ (mok_diff ctx p f1.1)).trans (not_lt.1 hle)
    have a2 := (hmax _ (mok_diff ctx v1 f2.1)).trans (not_lt.1 hle)
    have a3 := (hmax _ (mok_diff ctx p' m')).trans (not_lt.1 hle)
    have e : v1.ab.dot n = -(k * v0.ab.dot n) := by rw [ek]; simp only [V2.dot, V2.scale]; ring
    have z0 : v0.ab.dot n = 0 := by
      refine le_antisymm a0 ?_
      by_contra hneg
      have := mul_pos hk (neg_pos.2 (not_le.1 hneg))
      linarith
    have e2 : v0.ab.cross p'.ab * p.ab.dot n + p.ab.cross v0.ab * p'.ab.dot n = p.ab.cross p'.ab * v0.ab.dot n := by
      simp only [V2.cross, V2.dot]; ring
    rw [z0, mul_zero] at e2
    have b1 := mul_nonneg c3.le (neg_nonneg.2 a1)
    have b2 := mul_nonneg c1.le (neg_nonneg.2 a3)
    have z1 : p.ab.dot n = 0 := (mul_eq_zero.1 (by linarith : v0.ab.cross p'.ab * p.ab.dot n = 0)).resolve_left c3.ne'
    exact hn (dot_zero_of c1 z0 z1)
  have r0 := rim v0 f0
  have r1 := rim p f1
  have r2 := rim v1 f2
  have hrim : ∀ s ∈ ({p'.ab, v0.ab, p.ab, v1.ab} : Finset (V2 K)), Rim ctx s := by
    intro s hs'
    simp only [Finset.mem_insert, Finset.mem_singleton] at hs'
    rcases hs' with rfl | rfl | rfl | rfl
    exacts [r', r0, r1, r2]
  have edge : ∀ x y z w : V2 K, Rim ctx x → Rim ctx y → Rim ctx z → Rim ctx w → 0 < y.cross x → (y.cross z ≤ 0 ∨ z.cross x ≤ 0) → (y.cross w ≤ 0 ∨ w.cross x ≤ 0) →
      ∀ s, s = x ∨ s = y ∨ s = z ∨ s = w → ¬ Past x y s := by
    intro x y z w hx hy hz hw h1 h2 h3 s hsx hp
    have zz : ∀ v : V2 K, v.cross v = 0 := by intro v; simp only [V2.cross]; ring
    rcases hsx with rfl | rfl | rfl | rfl
    · unfold Past at hp; rw [zz] at hp; linarith
    · unfold Past at hp; rw [zz] at hp; linarith
    · obtain ⟨a, b⟩ := past_cone ctx x y s hx hy hz h1 hp
      rcases h2 with h | h <;> linarith
    · obtain ⟨a, b⟩ := past_cone ctx x y s hx hy hw h1 hp
      rcases h3 with h | h <;> linarith
  have hpath : PathFine {p'.ab, v0.ab, p.ab, v1.ab} p'.ab ([v0, p, v1].map MPoint.ab ++ [p'.ab]) := by
    simp only [List.map_cons, List.map_nil, List.cons_append, List.nil_append, PathFine, and_true, EdgeFine]
    have n1 := neg v0.ab p.ab
    have n2 := neg p'.ab v0.ab
    have n3 := neg v1.ab p'.ab
    have n4 := neg p.ab v1.ab
    have n5 := neg v1.ab v0.ab
    refine ⟨⟨c3, fun s hs' => edge _ _ p.ab v1.ab r' r0 r1 r2 c3 (Or.inl (by linarith)) (Or.inl (by linarith)) s ?_⟩,
      ⟨c1, fun s hs' => edge _ _ p'.ab v1.ab r0 r1 r' r2 c1 (Or.inr (by linarith)) (Or.inr (by linarith)) s ?_⟩,
      ⟨c2, fun s hs' => edge _ _ p'.ab v0.ab r1 r2 r' r0 c2 (Or.inl (by linarith)) (Or.inl (by linarith)) s ?_⟩,
      c4, fun s hs' => edge _ _ v0.ab p.ab r2 r' r0 r1 c4 (Or.inr (by linarith)) (Or.inr (by linarith)) s ?_⟩ <;>
    · simp only [Finset.mem_insert, Finset.mem_singleton] at hs'
      tauto
  have hmem3 : ∀ v ∈ [v0, p, v1], v = v0 ∨ v = p ∨ v = v1 := by intro v hv; simpa using hv
  obtain ⟨b1, b2⟩ := rebuild_fine ctx {p'.ab, v0.ab, p.ab, v1.ab} hrim p' r' [v0, p, v1] p' r'
    (fun x hx => by rcases hmem3 x hx with rfl | rfl | rfl; exacts [r0, r1, r2]) hpath
  have hmem : ∀ v ∈ p' :: epaRebuild p' p' [v0, p, v1], v = p' ∨ v = v0 ∨ v = p ∨ v = v1 := by
    intro v hv
    rcases List.mem_cons.1 hv with rfl | hv
    · exact Or.inl rfl
    · exact Or.inr (hmem3 v (epaRebuild_mem _ _ _ _ hv))
  refine ⟨⟨by simp, ?_, ?_, ?_, hrim, b1, ?_⟩, ?_⟩
  · intro v hv
    rcases hmem v hv with rfl | rfl | rfl | rfl
    exacts [m', f0.1, f1.1, f2.1]
  · intro v hv
    rcases hmem v hv with rfl | rfl | rfl | rfl <;> simp
  · intro s hs'
    simp only [Finset.mem_insert, Finset.mem_singleton] at hs'
    rcases hs' with rfl | rfl | rfl | rfl
    exacts [i', i0, i1, i2]
  · intro u hu
    show pathCount u p'.ab ((epaRebuild p' p' [v0, p, v1]).map MPoint.ab ++ [p'.ab]) ≤ 1
    rw [b2 u]
    simp only [List.map_cons, List.map_nil, List.cons_append, List.nil_append, pathCount]
    rw [crossing_pos c3, crossing_pos c1, crossing_pos c2, crossing_pos c4]
    have g := gv u
    have hrel : v0.ab.cross u = 0 → (0 < p.ab.cross u ↔ p'.ab.cross u < 0) := by
      intro hz
      have e2 : v0.ab.cross p'.ab * p.ab.cross u + p.ab.cross v0.ab * p'.ab.cross u = p.ab.cross p'.ab * v0.ab.cross u := by
        simp only [V2.cross]; ring
      rw [hz, mul_zero] at e2
      constructor
      · intro h
        by_contra hn
        have := mul_pos c3 h
        have := mul_nonneg c1.le (not_lt.1 hn)
        linarith
      · intro h
        by_contra hn
        have := mul_pos c1 (neg_pos.2 h)
        have := mul_nonneg c3.le (neg_nonneg.2 (not_lt.1 hn))
        linarith
    rcases le_or_gt (v0.ab.cross u) 0 with ha | ha
    · rcases le_or_gt (v1.ab.cross u) 0 with hc | hc
      · have hz : v0.ab.cross u = 0 := by
          refine le_antisymm ha ?_
          by_contra hn
          have := mul_pos hk (neg_pos.2 (not_le.1 hn))
          linarith
        have hr := hrel hz
        rcases le_or_gt (p.ab.cross u) 0 with hb | hb
        · rcases le_or_gt (p'.ab.cross u) 0 with hd | hd <;> simp [ha, hb, hc, hd, not_le.2, not_lt.2]
        · have hd := (hr.1 hb).le
          simp [ha, hb, hc, hd, not_le.2, not_lt.2]
      · rcases le_or_gt (p.ab.cross u) 0 with hb | hb <;> rcases le_or_gt (p'.ab.cross u) 0 with hd | hd <;>
          simp [ha, hb, hc, hd, not_le.2, not_lt.2]
    · have hc : v1.ab.cross u ≤ 0 := by rw [g]; have := mul_pos hk ha; linarith
      rcases le_or_gt (p.ab.cross u) 0 with hb | hb <;> rcases le_or_gt (p'.ab.cross u) 0 with hd | hd <;>
          simp [ha, hb, hc, hd, not_le.2, not_lt.2]
  · have d1 : p'.ab ≠ v0.ab := cross_ne c3
    have d2 : v0.ab ≠ p.ab := cross_ne c1
    have d3 : p.ab ≠ v1.ab := cross_ne c2
    have d4 : v1.ab ≠ p'.ab := cross_ne c4
    have d5 : v0.ab ≠ v1.ab := by
      intro e; rw [e, neg] at c1; linarith
    have d6 : p'.ab ≠ p.ab := by
      intro e; rw [e, neg] at c3; linarith
    rw [Finset.card_insert_of_notMem, Finset.card_insert_of_notMem, Finset.card_insert_of_notMem, Finset.card_singleton]
    · simpa using d3
    · simp [d2, d5]
    · simp [d1, d6, Ne.symm d4]

theorem epa_ends {M : Mth K} (hM : M.Lawful) (inf B : K) (ctx : Ctx K) (hs : Solid ctx) (hw1 : Within B ctx.s1) (hw2 : Within B ctx.s2) (hinf : 8 * (B * B) < inf)
    (R : Finset (V2 K)) (hRs : ∀ n, Bounded B n → (ctx.support inf n).ab ∈ R) (fuel : Nat) (hf : R.card ≤ 3 + fuel) (v0 p v1 : MPoint K)
    (i0 : v0.ab ∈ R) (i1 : p.ab ∈ R) (i2 : v1.ab ∈ R) (f0 : Far ctx v0) (f1 : Far ctx p) (f2 : Far ctx v1)
    (c0 : 0 ≤ v0.ab.cross v1.ab) (c1 : 0 < p.ab.cross v0.ab) (c2 : 0 < v1.ab.cross p.ab) :
    (epaRecurse M inf ctx fuel [v0, p, v1]).2 = .epaDone ∧ (epaRecurse M inf ctx fuel [v0, p, v1]).1.n ≠ V2.zero := by
  classical
  have n1 : v0.ab ≠ p.ab := cross_ne c1
  have n2 : p.ab ≠ v1.ab := cross_ne c2
  have neg : ∀ a b : V2 K, a.cross b = -(b.cross a) := by intro a b; simp only [V2.cross]; ring
  have n3 : v0.ab ≠ v1.ab := by
    intro e
    rw [e, neg] at c1
    linarith
  have mem3 : ∀ v ∈ [v0, p, v1], v = v0 ∨ v = p ∨ v = v1 := by intro v hv; simpa using hv
  rcases c0.lt_or_eq with c0 | c0
  · have rim : ∀ v : MPoint K, Far ctx v → Rim ctx v.ab := by
      rintro v ⟨mv, n, hn, hmax⟩
      refine ⟨mok_diff ctx v mv, n, ?_, hmax⟩
      by_contra hle
      have a0 := (hmax _ (mok_diff ctx v0 f0.1)).trans (not_lt.1 hle)
      have a1 := (hmax _ (mok_diff ctx p f1.1)).trans (not_lt.1 hle)
      have a2 := (hmax _ (mok_diff ctx v1 f2.1)).trans (not_lt.1 hle)
      have e : v1.ab.cross p.ab * v0.ab.dot n + v0.ab.cross v1.ab * p.ab.dot n + p.ab.cross v0.ab * v1.ab.dot n = 0 := by
        simp only [V2.cross, V2.dot]; ring
      have b0 := mul_nonneg c2.le (neg_nonneg.2 a0)
      have b1 := mul_nonneg c0.le (neg_nonneg.2 a1)
      have b2 := mul_nonneg c1.le (neg_nonneg.2 a2)
      have z0 : v0.ab.dot n = 0 := (mul_eq_zero.1 (by linarith : v1.ab.cross p.ab * v0.ab.dot n = 0)).resolve_left c2.ne'
      have z1 : p.ab.dot n = 0 := (mul_eq_zero.1 (by linarith : v0.ab.cross v1.ab * p.ab.dot n = 0)).resolve_left c0.ne'
      exact hn (dot_zero_of c1 z0 z1)
    have r0 := rim v0 f0
    have r1 := rim p f1
    have r2 := rim v1 f2
    refine epaRecurse_ends hM inf B ctx hs hw1 hw2 hinf R hRs fuel {v0.ab, p.ab, v1.ab} [v0, p, v1] ⟨by simp, ?_, ?_, ?_, ?_, ?_, ?_⟩ ?_
    · intro v hv
      rcases mem3 v hv with rfl | rfl | rfl
      exacts [f0.1, f1.1, f2.1]
    · intro v hv
      rcases mem3 v hv with rfl | rfl | rfl <;> simp
    · intro s hs'
      simp only [Finset.mem_insert, Finset.mem_singleton] at hs'
      rcases hs' with rfl | rfl | rfl
      exacts [i0, i1, i2]
    · intro s hs'
      simp only [Finset.mem_insert, Finset.mem_singleton] at hs'
      rcases hs' with rfl | rfl | rfl
      exacts [r0, r1, r2]
    · have edge : ∀ x y z : V2 K, Rim ctx x → Rim ctx y → Rim ctx z → 0 < y.cross x → 0 < z.cross y →
          ∀ s, s = x ∨ s = y ∨ s = z → ¬ Past x y s := by
        intro x y z hx hy hz h1 h2 s hsx hp
        have zz : ∀ v : V2 K, v.cross v = 0 := by intro v; simp only [V2.cross]; ring
        rcases hsx with rfl | rfl | rfl
        · unfold Past at hp; rw [zz] at hp; linarith
        · unfold Past at hp; rw [zz] at hp; linarith
        · have := (past_cone ctx x y s hx hy hz h1 hp).1
          rw [neg] at this; linarith
      simp only [List.map_cons, List.map_nil, RingFine, List.cons_append, List.nil_append, PathFine, and_true, EdgeFine]
      refine ⟨⟨c1, fun s hs' => edge _ _ _ r0 r1 r2 c1 c2 s ?_⟩, ⟨c2, fun s hs' => edge _ _ _ r1 r2 r0 c2 c0 s ?_⟩, c0, fun s hs' => edge _ _ _ r2 r0 r1 c0 c1 s ?_⟩ <;>
      · simp only [Finset.mem_insert, Finset.mem_singleton] at hs'
        tauto
    · intro u hu
      simp only [List.map_cons, List.map_nil, ringCount, List.cons_append, List.nil_append, pathCount]
      rw [crossing_pos c1, crossing_pos c2, crossing_pos c0]
      rcases le_or_gt (v0.ab.cross u) 0 with ha | ha <;> rcases le_or_gt (p.ab.cross u) 0 with hb | hb <;> rcases le_or_gt (v1.ab.cross u) 0 with hc | hc <;>
        simp [ha, hb, hc, not_le.2, not_lt.2]
    · rw [Finset.card_eq_three.2 ⟨_, _, _, n1, n3, n2, rfl⟩]; exact hf
  · obtain ⟨hz, -⟩ := side_zero v0.ab p.ab v1.ab c0.symm c1 c2
    have hpos : 0 < inf := lt_of_le_of_lt (by nlinarith [mul_self_nonneg B]) hinf
    have hscan := scan_first inf v0 p v1 hz hpos
    have e0 : hullAt [v0, p, v1] 2 = v1 := rfl
    have e1 : hullAt [v0, p, v1] ((2 + 1) % [v0, p, v1].length) = v0 := by simp [hullAt]
    have er : [v0, p, v1].rotate (2 + 1) = [v0, p, v1] := by simp [List.rotate]
    have hend : (v1.closestPoints M v0).n ≠ V2.zero := closest_normal_ne hM ctx v1 v0 f2.1 f0.1 (Ne.symm n3)
    have hq := fun hg => quad_inv ctx R (ctx.support inf (v0.ab.sub v1.ab).perp) v0 p v1 (hRs _ (perp_bounded B ctx hw1 hw2 v1 v0 f2.1 f0.1 (Ne.symm n3))) i0 i1 i2 f0 f1 f2 (support_ok inf ctx hs.1 hs.2 _)
      (support_rim inf B ctx hs hw1 hw2 hinf v1 v0 f2.1 f0.1 c0.le hg) c0.symm c1 c2 hg
    cases fuel with
    | zero =>
      rw [epaRecurse]
      rw [hscan, e0, e1]
      split
      · rename_i hc
        exfalso
        obtain ⟨hi, hcard⟩ := hq hc.2
        have := Finset.card_le_card hi.sub
        omega
      · exact ⟨rfl, hend⟩
    | succ fuel =>
      rw [epaRecurse]
      rw [hscan, e0, e1, er]
      split
      · rename_i hc
        obtain ⟨hi, hcard⟩ := hq hc.2
        exact epaRecurse_ends hM inf B ctx hs hw1 hw2 hinf R hRs fuel _ _ hi (by omega)
      · exact ⟨rfl, hend⟩


/-! ## GJK from two points on the rim -/

theorem gjkAxis_bound (B : K) (ctx : Ctx K) (hw1 : Within B ctx.s1) (hw2 : Within B ctx.s2) (v0 v1 : MPoint K) (h0 : MOk ctx v0) (h1 : MOk ctx v1) :
    |(gjkAxis v0.ab v1.ab).x| ≤ 4 * B ∧ |(gjkAxis v0.ab v1.ab).y| ≤ 4 * B := by
  unfold gjkAxis
  split
  · exact mok_perp_bound B ctx hw1 hw2 v0 v1 h0 h1
  · obtain ⟨b0x, b0y⟩ := mok_within B ctx hw1 hw2 v0 h0
    obtain ⟨b1x, b1y⟩ := mok_within B ctx hw1 hw2 v1 h1
    obtain ⟨tm, tM⟩ := closestT_mem v0.ab v1.ab
    generalize closestT v0.ab v1.ab = t at *
    rw [abs_le] at b0x b0y b1x b1y
    have c0 : 0 ≤ (1 - t) / 2 := by linarith
    have c1 : 0 ≤ (1 + t) / 2 := by linarith
    have key : ∀ x y : K, -(2 * B) ≤ x ∧ x ≤ 2 * B → -(2 * B) ≤ y ∧ y ≤ 2 * B → |-(x * ((1 - t) / 2) + y * ((1 + t) / 2))| ≤ 4 * B := by
      intro x y hx hy
      have a1 := mul_le_mul_of_nonneg_right hx.1 c0
      have a2 := mul_le_mul_of_nonneg_right hx.2 c0
      have a3 := mul_le_mul_of_nonneg_right hy.1 c1
      have a4 := mul_le_mul_of_nonneg_right hy.2 c1
      have hB : 0 ≤ B := by linarith [hx.1, hx.2]
      rw [abs_le]
      constructor <;> nlinarith
    have ex : (lerpT v0.ab v1.ab t).neg.x = -(v0.ab.x * ((1 - t) / 2) + v1.ab.x * ((1 + t) / 2)) := by simp only [lerpT, V2.add, V2.scale, V2.neg]; ring
    have ey : (lerpT v0.ab v1.ab t).neg.y = -(v0.ab.y * ((1 - t) / 2) + v1.ab.y * ((1 + t) / 2)) := by simp only [lerpT, V2.add, V2.scale, V2.neg]; ring
    rw [ex, ey]
    exact ⟨key _ _ b0x b1x, key _ _ b0y b1y⟩

theorem support_far (inf B : K) (ctx : Ctx K) (hs : Solid ctx) (hw1 : Within B ctx.s1) (hw2 : Within B ctx.s2) (hinf : 8 * (B * B) < inf) (n : V2 K)
    (hn : n ≠ V2.zero) (hx : |n.x| ≤ 4 * B) (hy : |n.y| ≤ 4 * B) : Far ctx (ctx.support inf n) :=
  ⟨support_ok inf ctx hs.1 hs.2 n, n, hn, fun x hd => support_max inf B ctx hs.1 hs.2 n hw1 hw2 hx hy hinf x hd⟩

/-! ## C106 -/

namespace Spec
/-- The middles of the two boxes, with which a search without a guess starts, differ and are within `B` of the origin. -/
def MiddlesApart (B : K) (ctx : Ctx K) : Prop :=
  ctx.bb1.center ≠ ctx.bb2.center ∧ |ctx.bb1.center.x| ≤ B ∧ |ctx.bb1.center.y| ≤ B ∧ |ctx.bb2.center.x| ≤ B ∧ |ctx.bb2.center.y| ≤ B
end Spec

/-- **C106.** GJK ends by itself: from any two differences of corners, if it may take more steps than there are pairs of differences of corners. -/
theorem C106_gjk_ends (M : Mth K) (inf : K) (ctx : Ctx K) (hs : Solid ctx) (w0 w1 : MPoint K) (h0 : MOk ctx w0) (h1 : MOk ctx w1) (fuel : Nat)
    (hf : ((corners ctx.s1).length * (corners ctx.s2).length).choose 2 < fuel) : (gjkRecurse M inf ctx fuel w0 w1).2 ≠ .gjkLimit := by
  refine (gjkRecurse_runs M inf ctx (diffs ctx) (MOk ctx) (mok_diffs ctx) (fun _ _ _ _ _ => support_ok inf ctx hs.1 hs.2 _) (fun _ => True)
    (fun _ _ _ _ _ _ _ _ _ => trivial) fuel w0 w1 h0 h1).1 ?_
  exact lt_of_le_of_lt ((nearerSides_le _ _).trans (Nat.choose_le_choose 2 (diffs_card ctx))) hf

theorem gjkStart_ok (inf : K) (ctx : Ctx K) (hs : Solid ctx) (id : Nat) : MOk ctx (gjkStart inf ctx id).1 ∧ MOk ctx (gjkStart inf ctx id).2 := by
  unfold gjkStart
  split
  · exact ⟨⟨(pointAt_mem ctx.s1 _ hs.1).1, (pointAt_mem ctx.s2 _ hs.2).1, rfl⟩, ⟨(pointAt_mem ctx.s1 _ hs.1).1, (pointAt_mem ctx.s2 _ hs.2).1, rfl⟩⟩
  · exact ⟨support_ok inf ctx hs.1 hs.2 _, support_ok inf ctx hs.1 hs.2 _⟩

/-- **C106.** For shapes with few corners - a ball and a polygon of up to eight corners, two rods, a rod and a box - the thirty steps are enough, with any guess. -/
theorem C106_gjk (M : Mth K) (inf : K) (ctx : Ctx K) (hs : Solid ctx) (hN : (corners ctx.s1).length * (corners ctx.s2).length ≤ 8) (id : Nat) :
    (gjk M inf ctx id).2 ≠ .gjkLimit := by
  obtain ⟨h0, h1⟩ := gjkStart_ok inf ctx hs id
  exact C106_gjk_ends M inf ctx hs _ _ h0 h1 30 (lt_of_le_of_lt (Nat.choose_le_choose 2 hN) (by decide))

/-- **C106.** With any guess, the number of steps is bounded by the pairs of as many points as the shapes have corners together, and two. -/
theorem C106_gjk_linear (M : Mth K) (inf B : K) (ctx : Ctx K) (hs : Solid ctx) (hw1 : Within B ctx.s1) (hw2 : Within B ctx.s2) (hinf : 8 * (B * B) < inf)
    (hb1 : Broad ctx.s1) (hb2 : Broad ctx.s2) (w0 w1 : MPoint K) (h0 : MOk ctx w0) (h1 : MOk ctx w1) (fuel : Nat)
    (hf : ((corners ctx.s1).length + (corners ctx.s2).length + 2).choose 2 < fuel) : (gjkRecurse M inf ctx fuel w0 w1).2 ≠ .gjkLimit := by
  classical
  obtain ⟨R, hR, hc⟩ := support_count inf B ctx hs hw1 hw2 hinf hb1 hb2
  refine (gjkRecurse_runs M inf ctx (insert w0.ab (insert w1.ab R)) (fun v => MOk ctx v ∧ v.ab ∈ insert w0.ab (insert w1.ab R)) (fun v hv => hv.2)
    (fun v0 v1 k0 k1 hn => ⟨support_ok inf ctx hs.1 hs.2 _, Finset.mem_insert_of_mem (Finset.mem_insert_of_mem
      (hR _ ⟨hn, gjkAxis_bound B ctx hw1 hw2 v0 v1 k0.1 k1.1⟩))⟩) (fun _ => True)
    (fun _ _ _ _ _ _ _ _ _ => trivial) fuel w0 w1 ⟨h0, Finset.mem_insert_self _ _⟩ ⟨h1, Finset.mem_insert_of_mem (Finset.mem_insert_self _ _)⟩).1 ?_
  refine lt_of_le_of_lt ((nearerSides_le _ _).trans (Nat.choose_le_choose 2 ?_)) hf
  refine (Finset.card_insert_le _ _).trans ?_
  have := Finset.card_insert_le w1.ab R
  omega

theorem fresh_runs {M : Mth K} (hM : M.Lawful) (inf B : K) (ctx : Ctx K) (hs : Solid ctx) (hw1 : Within B ctx.s1) (hw2 : Within B ctx.s2) (hinf : 8 * (B * B) < inf)
    (hb1 : Broad ctx.s1) (hb2 : Broad ctx.s2) (hmid : MiddlesApart B ctx) (hN : (corners ctx.s1).length + (corners ctx.s2).length ≤ 32) :
    ((corners ctx.s1).length + (corners ctx.s2).length ≤ 8 → (gjk M inf ctx 0).2 ≠ .gjkLimit) ∧
    ((gjk M inf ctx 0).2 = .gjkDone ∨ (gjk M inf ctx 0).2 = .gjkLimit ∨ (gjk M inf ctx 0).2 = .epaDone ∧ (gjk M inf ctx 0).1.n ≠ V2.zero) := by
  obtain ⟨R, hR, hc⟩ := support_count inf B ctx hs hw1 hw2 hinf hb1 hb2
  obtain ⟨hne, b1, b2, b3, b4⟩ := hmid
  have hB : 0 ≤ B := (abs_nonneg _).trans b1
  have haxis : ∀ n : V2 K, n = (ctx.bb1.center.sub ctx.bb2.center).perp ∨ n = (ctx.bb1.center.sub ctx.bb2.center).perp.neg → Bounded B n := by
    rw [abs_le] at b1 b2 b3 b4
    intro n hn
    have hne' : ctx.bb1.center.x ≠ ctx.bb2.center.x ∨ ctx.bb1.center.y ≠ ctx.bb2.center.y := by
      by_contra hc
      rw [not_or, not_not, not_not] at hc
      exact hne (V2.ext hc.1 hc.2)
    have hz : n = V2.zero → ctx.bb1.center.x = ctx.bb2.center.x ∧ ctx.bb1.center.y = ctx.bb2.center.y := by
      rintro rfl
      rcases hn with hn | hn <;> simp only [V2.zero, V2.perp, V2.neg, V2.sub, V2.mk.injEq] at hn <;> constructor <;> linarith [hn.1, hn.2]
    refine ⟨fun h => ?_, ?_⟩
    · rcases hne' with h' | h'
      · exact h' (hz h).1
      · exact h' (hz h).2
    · rcases hn with rfl | rfl <;> simp only [V2.perp, V2.neg, V2.sub] <;> rw [abs_le, abs_le] <;> refine ⟨⟨?_, ?_⟩, ⟨?_, ?_⟩⟩ <;>
        linarith [b1.1, b1.2, b2.1, b2.2, b3.1, b3.2, b4.1, b4.2]
  have far : ∀ n : V2 K, Bounded B n → Far ctx (ctx.support inf n) ∧ (ctx.support inf n).ab ∈ R := fun n h =>
    ⟨support_far inf B ctx hs hw1 hw2 hinf n h.1 h.2.1 h.2.2, hR n h⟩
  have e : gjkStart inf ctx 0 = (ctx.support inf (ctx.bb1.center.sub ctx.bb2.center).perp, ctx.support inf (ctx.bb1.center.sub ctx.bb2.center).perp.neg) := rfl
  have runs := gjkRecurse_runs M inf ctx R (fun v => Far ctx v ∧ v.ab ∈ R) (fun v hv => hv.2)
    (fun v0 v1 h0 h1 hn => far _ ⟨hn, gjkAxis_bound B ctx hw1 hw2 v0 v1 h0.1.1 h1.1.1⟩)
    (fun r => r.2 = .epaDone ∧ r.1.n ≠ V2.zero)
    (fun v0 p v1 f0 f1 f2 c0 c1 c2 => epa_ends hM inf B ctx hs hw1 hw2 hinf R hR 29 (hc.trans hN) v0 p v1 f0.2 f1.2 f2.2 f0.1 f1.1 f2.1 c0 c1 c2)
    30 _ _ (far _ (haxis _ (Or.inl rfl))) (far _ (haxis _ (Or.inr rfl)))
  unfold gjk
  rw [e]
  refine ⟨fun hc' => runs.1 ?_, runs.2⟩
  exact lt_of_le_of_lt ((nearerSides_le _ _).trans (Nat.choose_le_choose 2 (hc.trans hc'))) (by decide)

/-- **C106.** EPA always ends by itself, and at a proper normal, in a search without a guess between shapes with up to 32 corners together. -/
theorem C106_epa {M : Mth K} (hM : M.Lawful) (inf B : K) (ctx : Ctx K) (hs : Solid ctx) (hw1 : Within B ctx.s1) (hw2 : Within B ctx.s2) (hinf : 8 * (B * B) < inf)
    (hb1 : Broad ctx.s1) (hb2 : Broad ctx.s2) (hmid : MiddlesApart B ctx) (hN : (corners ctx.s1).length + (corners ctx.s2).length ≤ 32) :
    (gjk M inf ctx 0).2 ≠ .epaLimit ∧ ((gjk M inf ctx 0).2 = .epaDone → (gjk M inf ctx 0).1.n ≠ V2.zero) := by
  obtain ⟨-, h⟩ := fresh_runs hM inf B ctx hs hw1 hw2 hinf hb1 hb2 hmid hN
  rcases h with h | h | h
  · rw [h]; simp
  · rw [h]; simp
  · exact ⟨by rw [h.1]; simp, fun _ => h.2⟩

/-- **C106.** A search without a guess ends by itself if the shapes have at most eight corners together: all pairs of balls, rods, triangles and boxes. -/
theorem C106_fresh {M : Mth K} (hM : M.Lawful) (inf B : K) (ctx : Ctx K) (hs : Solid ctx) (hw1 : Within B ctx.s1) (hw2 : Within B ctx.s2) (hinf : 8 * (B * B) < inf)
    (hb1 : Broad ctx.s1) (hb2 : Broad ctx.s2) (hmid : MiddlesApart B ctx) (hN : (corners ctx.s1).length + (corners ctx.s2).length ≤ 8) :
    (gjk M inf ctx 0).2 = .gjkDone ∨ (gjk M inf ctx 0).2 = .epaDone ∧ (gjk M inf ctx 0).1.n ≠ V2.zero := by
  obtain ⟨h1, h2⟩ := fresh_runs hM inf B ctx hs hw1 hw2 hinf hb1 hb2 hmid (hN.trans (by decide))
  have := h1 hN
  tauto

theorem figure_broad (M : Mth K) (inf : K) {t : Transform K} (ht : Rigid t) {s : Figure K} (hs : s.Good) (h : BitVec 64) : Broad (cachedShape inf t (s.made M) h).cls := by
  cases s with
  | ball r c => trivial
  | rod a b r => trivial
  | poly verts r =>
    have e : ((Poly.new M verts r).cache inf t).1.world.map Plane.v0 = verts.map t.apply := by
      have : ((Poly.new M verts r).cache inf t).1.world.map Plane.v0 = ((Poly.new M verts r).loc.map Plane.v0).map t.apply := by
        simp only [Poly.cache, List.map_map]; rfl
      rw [this]
      show ((setVertsGo M _ verts).map Plane.v0).map t.apply = _
      rw [setVertsGo_verts]
    show ∀ n : V2 K, n ≠ V2.zero → ∃ v ∈ ((Poly.new M verts r).cache inf t).1.world.map Plane.v0, ∃ w ∈ ((Poly.new M verts r).cache inf t).1.world.map Plane.v0, v.dot n ≠ w.dot n
    rw [e]
    obtain ⟨-, ⟨h3, hnd, hside⟩, -⟩ := hs
    obtain ⟨a, b, c, l, rfl⟩ : ∃ a b c l, verts = a :: b :: c :: l := by
      rcases verts with _ | ⟨a, _ | ⟨b, _ | ⟨c, l⟩⟩⟩
      · simp at h3
      · simp at h3
      · simp at h3
      · exact ⟨a, b, c, l, rfl⟩
    have hc := (hside (a, b) (by simp [pairsFrom])).2 c (by simp)
    simp only [List.nodup_cons, List.mem_cons, not_or] at hnd
    have hpos : 0 < (b.sub a).cross (c.sub a) := by
      rcases hc with rfl | rfl | hc
      · exact absurd rfl hnd.1.2.1
      · exact absurd rfl hnd.2.1.1
      · exact hc
    intro n hn
    by_contra hall
    push Not at hall
    have e1 := hall (t.apply b) (by simp) (t.apply a) (by simp)
    have e2 := hall (t.apply c) (by simp) (t.apply a) (by simp)
    obtain ⟨r1, r2, r3⟩ := ht
    have hcr : ((t.apply b).sub (t.apply a)).cross ((t.apply c).sub (t.apply a)) = (b.sub a).cross (c.sub a) := by
      simp only [Transform.apply, V2.sub, V2.cross]
      rw [r2, r3]
      linear_combination ((b.x - a.x) * (c.y - a.y) - (b.y - a.y) * (c.x - a.x)) * r1
    refine hn (dot_zero_of (a := (t.apply c).sub (t.apply a)) (b := (t.apply b).sub (t.apply a)) (by rw [hcr]; exact hpos) ?_ ?_)
    · simp only [V2.dot, V2.sub] at *; linarith
    · simp only [V2.dot, V2.sub] at *; linarith

/-- **C106.** The assumption of C102 is down to what the code needs: in a search without a guess between two balls, rods or convex polygons placed anyhow,
with at most eight corners together, a distance that is not zero, and no rod end-on in the wrong place. -/
theorem C106_settled {M : Mth K} (hM : M.Lawful) (inf B : K) (hinf : 8 * (B * B) < inf) {t u : Transform K} (ht : Rigid t) (hu : Rigid u)
    {s s' : Figure K} (hs : s.Good) (hs' : s'.Good) (h1 h2 : BitVec 64) (a b : CShape K) (ha : a = cachedShape inf t (s.made M) h1)
    (hb : b = cachedShape inf u (s'.made M) h2) (hw1 : Within B a.cls) (hw2 : Within B b.cls) (hmid : MiddlesApart B ⟨a.cls, b.cls, a.bb, b.bb⟩)
    (hN : (corners a.cls).length + (corners b.cls).length ≤ 8)
    (hd : (gjk M inf ⟨a.cls, b.cls, a.bb, b.bb⟩ 0).2 = .gjkDone → (gjk M inf ⟨a.cls, b.cls, a.bb, b.bb⟩ 0).1.d ≠ 0)
    (tiny : K) (he : EndsClear tiny (gjk M inf ⟨a.cls, b.cls, a.bb, b.bb⟩ 0).1 a.cls b.cls) :
    SearchSettled M inf tiny a b 0 := by
  have k1 : corners a.cls ≠ [] ∧ Broad a.cls := by rw [ha]; exact ⟨(figure_corners M inf t hs h1).1, figure_broad M inf ht hs h1⟩
  have k2 : corners b.cls ≠ [] ∧ Broad b.cls := by rw [hb]; exact ⟨(figure_corners M inf u hs' h2).1, figure_broad M inf hu hs' h2⟩
  rcases C106_fresh hM inf B ⟨a.cls, b.cls, a.bb, b.bb⟩ ⟨k1.1, k2.1⟩ hw1 hw2 hinf k1.2 k2.2 hmid hN with h | h
  · exact ⟨_, _, rfl, Or.inl ⟨h, hd h⟩, he⟩
  · exact ⟨_, _, rfl, Or.inr h, he⟩

/-! ## Examples -/

/-- Two overlapping squares, one a little to the side of the other. -/
def exBoxes : Ctx ℚ :=
  ⟨.poly ⟨0, [⟨⟨1, -1⟩, ⟨1, 0⟩⟩, ⟨⟨1, 1⟩, ⟨0, 1⟩⟩, ⟨⟨-1, 1⟩, ⟨-1, 0⟩⟩, ⟨⟨-1, -1⟩, ⟨0, -1⟩⟩], []⟩,
    .poly ⟨0, [⟨⟨2, -1⟩, ⟨1, 0⟩⟩, ⟨⟨2, 1⟩, ⟨0, 1⟩⟩, ⟨⟨0, 1⟩, ⟨-1, 0⟩⟩, ⟨⟨0, -1⟩, ⟨0, -1⟩⟩], []⟩, ⟨-1, -1, 1, 1⟩, ⟨0, -1, 2, 1⟩⟩

theorem exBoxes_broad (s : Cls ℚ) (h : s = exBoxes.s1 ∨ s = exBoxes.s2) : Broad s := by
  rcases h with rfl | rfl
  all_goals
    intro n hn
    by_contra hall
    push Not at hall
    simp only [List.map_cons, List.map_nil, List.mem_cons, List.not_mem_nil, or_false, forall_eq_or_imp, forall_eq, V2.dot] at hall
    exact hn (V2.ext (by simp only [V2.zero]; linarith [hall.1.2.1, hall.1.2.2.1]) (by simp only [V2.zero]; linarith [hall.1.2.1, hall.1.2.2.1]))

/-- The two squares meet the hypotheses of `C106_epa` and `C106_fresh`; the search has to go through EPA. -/
example : Solid exBoxes ∧ Within 2 exBoxes.s1 ∧ Within 2 exBoxes.s2 ∧ 8 * ((2 : ℚ) * 2) < 1000 ∧ Broad exBoxes.s1 ∧ Broad exBoxes.s2 ∧ MiddlesApart 2 exBoxes ∧
    (corners exBoxes.s1).length + (corners exBoxes.s2).length ≤ 8 ∧ (gjk gridMth 1000 exBoxes 0).2 = .epaDone := by
  refine ⟨⟨by simp [exBoxes, corners], by simp [exBoxes, corners]⟩, ?_, ?_, by norm_num, exBoxes_broad _ (Or.inl rfl), exBoxes_broad _ (Or.inr rfl), ?_, by decide, ?_⟩
  · unfold Within; decide +kernel
  · unfold Within; decide +kernel
  · unfold MiddlesApart; decide +kernel
  · decide +kernel

/-- The differences of two rods: the hypotheses of `C106_gjk_ends`, `C106_gjk` and `C106_gjk_linear`. -/
example : ∃ ctx : Ctx ℝ, Solid ctx ∧ Within 3 ctx.s1 ∧ Within 3 ctx.s2 ∧ Broad ctx.s1 ∧ Broad ctx.s2 ∧ (∃ w0 w1, MOk ctx w0 ∧ MOk ctx w1 ∧ w0.ab ≠ w1.ab) ∧
    ((corners ctx.s1).length * (corners ctx.s2).length).choose 2 < 30 ∧ (corners ctx.s1).length * (corners ctx.s2).length ≤ 8 ∧
    ((corners ctx.s1).length + (corners ctx.s2).length + 2).choose 2 < 30 := by
  refine ⟨⟨exFlat.cls, exSlant.cls, exFlat.bb, exSlant.bb⟩, ⟨by simp [exFlat, cachedShape, Figure.made, Cls.cache, corners], by simp [exSlant, cachedShape, Figure.made, Cls.cache, corners]⟩,
    ?_, ?_, trivial, trivial, ⟨⟨⟨-1, 0⟩, ⟨0, 1⟩, ⟨1, 1⟩, 0⟩, ⟨⟨1, 0⟩, ⟨0, 1⟩, ⟨-1, 1⟩, 256⟩, ?_, ?_, ?_⟩, by decide, by decide, by decide⟩
  · intro v hv
    simp only [exFlat, cachedShape, Figure.made, Cls.cache, Segment.cache, Segment.new, Transform.apply, corners, List.mem_cons, List.not_mem_nil, or_false] at hv
    rcases hv with rfl | rfl <;> norm_num
  · intro v hv
    simp only [exSlant, cachedShape, Figure.made, Cls.cache, Segment.cache, Segment.new, Transform.apply, corners, List.mem_cons, List.not_mem_nil, or_false] at hv
    rcases hv with rfl | rfl <;> norm_num
  · simp [MOk, exFlat, exSlant, cachedShape, Figure.made, Cls.cache, Segment.cache, Segment.new, Transform.apply, corners, V2.sub]
  · simp [MOk, exFlat, exSlant, cachedShape, Figure.made, Cls.cache, Segment.cache, Segment.new, Transform.apply, corners, V2.sub]
  · simp; norm_num

/-- The two rods meet the hypotheses of `C106_settled`. -/
example : (Figure.rod ⟨-1, 0⟩ ⟨1, 0⟩ 1 : Figure ℝ).Good ∧ (Figure.rod ⟨0, 1⟩ ⟨2, 3⟩ 1 : Figure ℝ).Good ∧ Rigid (⟨1, 0, 0, 1, 0, 0⟩ : Transform ℝ) ∧
    exFlat = cachedShape 1000 ⟨1, 0, 0, 1, 0, 0⟩ ((Figure.rod ⟨-1, 0⟩ ⟨1, 0⟩ 1).made realMth) 2 ∧
    exSlant = cachedShape 1000 ⟨1, 0, 0, 1, 0, 0⟩ ((Figure.rod ⟨0, 1⟩ ⟨2, 3⟩ 1).made realMth) 1 ∧
    8 * ((3 : ℝ) * 3) < 1000 ∧ MiddlesApart 3 (⟨exFlat.cls, exSlant.cls, exFlat.bb, exSlant.bb⟩ : Ctx ℝ) ∧
    (corners exFlat.cls).length + (corners exSlant.cls).length ≤ 8 ∧
    ((gjk realMth 1000 ⟨exFlat.cls, exSlant.cls, exFlat.bb, exSlant.bb⟩ 0).2 = .gjkDone → (gjk realMth 1000 ⟨exFlat.cls, exSlant.cls, exFlat.bb, exSlant.bb⟩ 0).1.d ≠ 0) ∧
    EndsClear (1/1000) (gjk realMth 1000 ⟨exFlat.cls, exSlant.cls, exFlat.bb, exSlant.bb⟩ 0).1 exFlat.cls exSlant.cls := by
  have hg : gjk realMth 1000 ⟨exFlat.cls, exSlant.cls, exFlat.bb, exSlant.bb⟩ 0 =
      (MPoint.closestPoints realMth ⟨⟨-1, 0⟩, ⟨0, 1⟩, ⟨1, 1⟩, 0⟩ ⟨⟨1, 0⟩, ⟨0, 1⟩, ⟨-1, 1⟩, 256⟩, .gjkDone) := by
    simp only [exFlat, exSlant, cachedShape, Figure.made, Cls.cache, Segment.cache, Segment.new, Transform.apply, gjk, gjkStart, ne_eq, not_true_eq_false, if_false,
      BB.center, V2.lerp, V2.add, V2.scale, V2.sub, V2.perp, V2.neg, Ctx.support, Cls.support, MPoint.new, V2.dot]
    norm_num
    iterate 2
      rw [gjkRecurse]
      simp only [pointGreater, closestT, lerpT, clamp, checkAxis, V2.zero, V2.lengthSq, V2.dot, V2.sub, V2.add, V2.perp, V2.neg, closestDist,
        Ctx.support, Cls.support, MPoint.new, V2.scale]
      norm_num
  have e : MPoint.closestPoints realMth ⟨⟨-1, 0⟩, ⟨0, 1⟩, ⟨1, 1⟩, 0⟩ ⟨⟨1, 0⟩, ⟨0, 1⟩, ⟨-1, 1⟩, 256⟩ = ⟨⟨0, 0⟩, ⟨0, 1⟩, ⟨0, 1⟩, 1, 256⟩ := by
    have hs : realMth.sqrt (2 * 2) = 2 := Real.sqrt_mul_self (by norm_num)
    simp only [MPoint.closestPoints, closestT, lerpT, clamp, V2.unit, V2.mag, V2.lengthSq, V2.dot, V2.sub, V2.add, V2.rperp, V2.scale]
    norm_num
    norm_num at hs
    rw [hs]
    norm_num
  rw [hg, e]
  refine ⟨⟨by norm_num, by norm_num [V2.mk.injEq]⟩, ⟨by norm_num, by simp⟩, ⟨by norm_num, by norm_num, by norm_num⟩, rfl, rfl, by norm_num, ⟨?_, ?_, ?_, ?_, ?_⟩, by decide, fun _ => by norm_num, Or.inl ⟨Or.inl ?_, Or.inl ?_⟩⟩
  all_goals
    norm_num [NotEndOn, exFlat, exSlant, cachedShape, Figure.made, Cls.cache, Segment.cache, Segment.new, Transform.apply, V2.cross, V2.sub, BB.center, V2.lerp, V2.add, V2.scale, abs_le]

end Cm
