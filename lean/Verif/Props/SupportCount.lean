import Mathlib.Data.Fintype.Sum
import Mathlib.Data.Fintype.Prod
import Verif.Props.Gjk
/-! # C106: how many different answers the support functions of two shapes give together -/
set_option linter.unusedSectionVars false
set_option linter.unusedSimpArgs false
set_option linter.unusedVariables false

namespace Cm
open Spec
variable {K : Type} [Field K] [LinearOrder K] [IsStrictOrderedRing K]

/-! ## Directions in the order of their angle -/

/-- The upper half of the plane, with the positive half of the horizontal axis. -/
def Up (w : V2 K) : Prop := 0 < w.y ∨ w.y = 0 ∧ 0 < w.x

theorem up_scale {w : V2 K} {c : K} (hc : 0 < c) : Up (w.scale c) ↔ Up w := by
  simp only [Up, V2.scale]
  rw [mul_pos_iff_of_pos_right hc, mul_pos_iff_of_pos_right hc, mul_eq_zero]
  simp [hc.ne']

theorem up_or {w : V2 K} (h : w ≠ V2.zero) : Up w ∨ Up w.neg := by
  simp only [Up, V2.neg, Left.neg_pos_iff, neg_eq_zero]
  rcases lt_trichotomy w.y 0 with hy | hy | hy
  · exact Or.inr (Or.inl hy)
  · rcases lt_trichotomy w.x 0 with hx | hx | hx
    · exact Or.inr (Or.inr ⟨hy, hx⟩)
    · exact absurd (V2.ext hx hy) h
    · exact Or.inl (Or.inr ⟨hy, hx⟩)
  · exact Or.inl (Or.inl hy)

theorem up_not {w : V2 K} (h : Up w) : ¬ Up w.neg := by
  simp only [Up, V2.neg, Left.neg_pos_iff, neg_eq_zero] at *
  rcases h with h | h <;> rintro (h' | h') <;> linarith [h, h']

/-- What combinations with coefficients of one sign can be. -/
theorem up_comb {a b : V2 K} {s t : K} (ha : Up a) (hb : Up b) (hs : 0 ≤ s) (ht : 0 ≤ t) : ¬ Up (((a.scale s).add (b.scale t)).neg) := by
  simp only [Up, V2.neg, V2.add, V2.scale, Left.neg_pos_iff, neg_eq_zero] at *
  have ay : 0 ≤ a.y := by rcases ha with h | h <;> linarith [h]
  have hby : 0 ≤ b.y := by rcases hb with h | h <;> linarith [h]
  have p1 := mul_nonneg ay hs
  have p2 := mul_nonneg hby ht
  rintro (h | ⟨h, h'⟩)
  · linarith
  · have z1 : a.y * s = 0 := by linarith
    have z2 : b.y * t = 0 := by linarith
    have q1 : 0 ≤ a.x * s := by
      rcases mul_eq_zero.1 z1 with z | z
      · rcases ha with ha | ha
        · linarith
        · exact mul_nonneg ha.2.le hs
      · rw [z, mul_zero]
    have q2 : 0 ≤ b.x * t := by
      rcases mul_eq_zero.1 z2 with z | z
      · rcases hb with hb | hb
        · linarith
        · exact mul_nonneg hb.2.le ht
      · rw [z, mul_zero]
    linarith

theorem three (a b c : V2 K) : c.scale (a.cross b) = ((b.scale (a.cross c)).add (a.scale (-(b.cross c)))) := by
  simp only [V2.scale, V2.add, V2.cross]; ext <;> simp only <;> ring

/-- The direction `a` comes before `b` counterclockwise from the horizontal axis. -/
def Before (a b : V2 K) : Prop := (Up a ∧ ¬ Up b) ∨ ((Up a ↔ Up b) ∧ 0 < a.cross b)

theorem neg_comb (a b : V2 K) (s t : K) : ((a.scale s).add (b.scale t)).neg = (a.neg.scale s).add (b.neg.scale t) := by
  simp only [V2.neg, V2.add, V2.scale]; ext <;> simp only <;> ring

theorem neg_neg' (a : V2 K) : a.neg.neg = a := by simp only [V2.neg, neg_neg]

/-- Three directions of which the third is less than half a turn from the first. -/
theorem before_mid {a b c : V2 K} (hb : b ≠ V2.zero) (hc : c ≠ V2.zero) (h1 : Before a b) (h2 : Before b c) (h : 0 < a.cross c) :
    0 < a.cross b ∧ 0 < b.cross c := by
  have anti : ∀ x y : V2 K, x.cross y = -(y.cross x) := by intro x y; simp only [V2.cross]; ring
  rcases h1 with ⟨ua, ub⟩ | ⟨uab, cab⟩
  · rcases h2 with ⟨ub', -⟩ | ⟨ubc, cbc⟩
    · exact absurd ub' ub
    · refine ⟨?_, cbc⟩
      by_contra hn
      have nb := (up_or hb).resolve_left ub
      have nc := (up_or hc).resolve_left (fun h => ub (ubc.2 h))
      have e := three b c a
      have hu : Up (a.scale (b.cross c)) := (up_scale cbc).2 ua
      rw [e] at hu
      refine up_comb (a := c.neg) (b := b.neg) (s := b.cross a) (t := -(c.cross a)) nc nb ?_ ?_ ?_
      · have := anti a b; linarith [not_lt.1 hn]
      · have := anti a c; linarith
      · rw [neg_comb, neg_neg', neg_neg']; exact hu
  · rcases h2 with ⟨ub, uc⟩ | ⟨ubc, cbc⟩
    · refine ⟨cab, ?_⟩
      by_contra hn
      have ua := uab.2 ub
      have nc := (up_or hc).resolve_left uc
      have e := three a b c
      refine up_comb (a := b) (b := a) (s := a.cross c) (t := -(b.cross c)) ub ua h.le (by linarith [not_lt.1 hn]) ?_
      rw [← e]
      have : (c.scale (a.cross b)).neg = c.neg.scale (a.cross b) := by simp only [V2.neg, V2.scale]; ext <;> simp only <;> ring
      rw [this]
      exact (up_scale cab).2 nc
    · exact ⟨cab, cbc⟩

/-- A direction half a turn or more after another belongs to the lower half, and the other to the upper one. -/
theorem before_far {a c : V2 K} (h : Before a c) (hc : a.cross c ≤ 0) : Up a ∧ ¬ Up c := by
  rcases h with h | h
  · exact h
  · linarith [h.2]

/-- After a direction half a turn or more from `a`, all are more than half a turn from it. -/
theorem before_after {a c d : V2 K} (hc : c ≠ V2.zero) (hd : d ≠ V2.zero) (h1 : Before a c) (h2 : Before c d) (h : a.cross c ≤ 0) :
    a.cross d < 0 ∧ 0 < c.cross d := by
  obtain ⟨ua, uc⟩ := before_far h1 h
  rcases h2 with ⟨u, -⟩ | ⟨ucd, ccd⟩
  · exact absurd u uc
  · refine ⟨?_, ccd⟩
    by_contra hn
    have nc := (up_or hc).resolve_left uc
    have nd := (up_or hd).resolve_left (fun h => uc (ucd.2 h))
    have anti : ∀ x y : V2 K, x.cross y = -(y.cross x) := by intro x y; simp only [V2.cross]; ring
    -- a (c x d) = d (c x a) - c (d x a)
    have e := three c d a
    have hu : Up (a.scale (c.cross d)) := (up_scale ccd).2 ua
    rw [e] at hu
    refine up_comb (a := d.neg) (b := c.neg) (s := c.cross a) (t := -(d.cross a)) nd nc ?_ ?_ ?_
    · have := anti a c; linarith
    · have := anti a d; linarith [not_lt.1 hn]
    · rw [neg_comb, neg_neg', neg_neg']; exact hu

/-- Before a direction from which `d` is half a turn or more away, all are more than half a turn before `d`. -/
theorem before_before {a b d : V2 K} (hd : d ≠ V2.zero) (h1 : Before a b) (h2 : Before b d) (h : b.cross d ≤ 0) :
    a.cross d < 0 ∧ 0 < a.cross b := by
  obtain ⟨ub, ud⟩ := before_far h2 h
  rcases h1 with ⟨-, u⟩ | ⟨uab, cab⟩
  · exact absurd ub u
  · refine ⟨?_, cab⟩
    by_contra hn
    have ua := uab.2 ub
    have nd := (up_or hd).resolve_left ud
    have e := three a b d
    refine up_comb (a := b) (b := a) (s := a.cross d) (t := -(b.cross d)) ub ua (not_lt.1 hn) (by linarith) ?_
    rw [← e]
    have : (d.scale (a.cross b)).neg = d.neg.scale (a.cross b) := by simp only [V2.neg, V2.scale]; ext <;> simp only <;> ring
    rw [this]
    exact (up_scale cab).2 nd

/-- Between two opposite directions. -/
theorem before_opp {a b c : V2 K} (hb : b ≠ V2.zero) (hc : c ≠ V2.zero) (h1 : Before a b) (h2 : Before b c) (h : a.cross c = 0) (hac : Before a c) : 0 < a.cross b := by
  obtain ⟨ua, uc⟩ := before_far hac h.le
  rcases h1 with ⟨-, ub⟩ | ⟨-, cab⟩
  · rcases h2 with ⟨ub', -⟩ | ⟨ubc, cbc⟩
    · exact absurd ub' ub
    · by_contra hn
      have nb := (up_or hb).resolve_left ub
      have nc := (up_or hc).resolve_left uc
      have anti : ∀ x y : V2 K, x.cross y = -(y.cross x) := by intro x y; simp only [V2.cross]; ring
      have e := three b c a
      have hu : Up (a.scale (b.cross c)) := (up_scale cbc).2 ua
      rw [e] at hu
      refine up_comb (a := c.neg) (b := b.neg) (s := b.cross a) (t := -(c.cross a)) nc nb ?_ ?_ ?_
      · have := anti a b; linarith [not_lt.1 hn]
      · have := anti a c; linarith
      · rw [neg_comb, neg_neg', neg_neg']; exact hu
  · exact cab

/-! ## A number for the angle -/

open Classical in
/-- A number between 0 and 4 growing with the angle of a direction. -/
noncomputable def angleKey (w : V2 K) : K :=
  if Up w then 1 - w.x / (|w.x| + |w.y|) else 3 + w.x / (|w.x| + |w.y|)

theorem size_pos {w : V2 K} (h : w ≠ V2.zero) : 0 < |w.x| + |w.y| := by
  rcases eq_or_ne w.x 0 with hx | hx
  · rcases eq_or_ne w.y 0 with hy | hy
    · exact absurd (V2.ext hx hy) h
    · have := abs_pos.2 hy; have := abs_nonneg w.x; linarith
  · have := abs_pos.2 hx; have := abs_nonneg w.y; linarith

theorem ratio_le {w : V2 K} (h : w ≠ V2.zero) : -1 ≤ w.x / (|w.x| + |w.y|) ∧ w.x / (|w.x| + |w.y|) ≤ 1 := by
  have hp := size_pos h
  have h1 := le_abs_self w.x
  have h2 := neg_abs_le w.x
  have h3 := abs_nonneg w.y
  constructor
  · rw [le_div_iff₀ hp]; linarith
  · rw [div_le_iff₀ hp]; linarith

theorem ratio_up {w : V2 K} (hu : Up w) (h : w ≠ V2.zero) : -1 < w.x / (|w.x| + |w.y|) := by
  have hp := size_pos h
  have h2 := neg_abs_le w.x
  have h3 := abs_nonneg w.y
  rw [lt_div_iff₀ hp]
  rcases hu with hy | ⟨hy, hx⟩
  · have := abs_pos.2 hy.ne'; linarith
  · have := abs_nonneg w.x; linarith

theorem ratio_down {w : V2 K} (hu : ¬ Up w) (h : w ≠ V2.zero) : w.x / (|w.x| + |w.y|) < 1 := by
  have hp := size_pos h
  have h2 := le_abs_self w.x
  have h3 := abs_nonneg w.y
  have hn := (up_or h).resolve_left hu
  rw [div_lt_iff₀ hp]
  simp only [Up, V2.neg, Left.neg_pos_iff, neg_eq_zero] at hn
  rcases hn with hy | ⟨hy, hx⟩
  · have := abs_pos.2 hy.ne; linarith
  · have := abs_pos.2 hx.ne; linarith

theorem up_y {w : V2 K} (hu : Up w) : 0 ≤ w.y := by
  rcases hu with h | h
  · exact h.le
  · exact h.1.ge

/-- In the upper half the ratio falls as the angle grows. -/
theorem ratio_cross {a b : V2 K} (ha : Up a) (hb : Up b) (h : b.x * (|a.x| + a.y) < a.x * (|b.x| + b.y)) : 0 < a.cross b := by
  have ya := up_y ha
  have yb := up_y hb
  simp only [V2.cross]
  rcases le_or_gt 0 a.x with hx | hx <;> rcases le_or_gt 0 b.x with hx' | hx'
  · rw [abs_of_nonneg hx, abs_of_nonneg hx'] at h; nlinarith
  · rcases hb with hb | hb
    · rcases hx.eq_or_lt with h0 | h0
      · rcases ha with ha | ha
        · nlinarith
        · linarith [ha.2]
      · nlinarith
    · linarith [hb.2]
  · rw [abs_of_neg hx, abs_of_nonneg hx'] at h; nlinarith [mul_nonneg hx' ya]
  · rw [abs_of_neg hx, abs_of_neg hx'] at h; nlinarith

theorem key_before {a b : V2 K} (ha : a ≠ V2.zero) (hb : b ≠ V2.zero) (h : angleKey a < angleKey b) : Before a b := by
  have pa := size_pos ha
  have pb := size_pos hb
  unfold angleKey at h
  split at h <;> split at h
  · rename_i ua ub
    refine Or.inr ⟨iff_of_true ua ub, ratio_cross ua ub ?_⟩
    have h' : b.x / (|b.x| + |b.y|) < a.x / (|a.x| + |a.y|) := by linarith
    rw [div_lt_div_iff₀ pb pa] at h'
    rwa [abs_of_nonneg (up_y ua), abs_of_nonneg (up_y ub)] at h'
  · rename_i ua ub
    exact Or.inl ⟨ua, ub⟩
  · rename_i ua ub
    have := ratio_le ha
    have := ratio_up ub hb
    linarith
  · rename_i ua ub
    have na := (up_or ha).resolve_left ua
    have nb := (up_or hb).resolve_left ub
    refine Or.inr ⟨iff_of_false ua ub, ?_⟩
    have h' : a.x / (|a.x| + |a.y|) < b.x / (|b.x| + |b.y|) := by linarith
    rw [div_lt_div_iff₀ pa pb] at h'
    have e : a.cross b = a.neg.cross b.neg := by simp only [V2.cross, V2.neg]; ring
    rw [e]
    refine ratio_cross na nb ?_
    have y1 := up_y na
    have y2 := up_y nb
    simp only [V2.neg] at y1 y2 ⊢
    rw [abs_neg, abs_neg]
    rw [abs_of_nonpos (by linarith : a.y ≤ 0), abs_of_nonpos (by linarith : b.y ≤ 0)] at h'
    linarith

/-- Directions with one number lie on one ray. -/
theorem key_eq {a b : V2 K} (ha : a ≠ V2.zero) (hb : b ≠ V2.zero) (h : angleKey a = angleKey b) : a.cross b = 0 ∧ 0 < a.dot b := by
  have pa := size_pos ha
  have pb := size_pos hb
  -- the two of one sign in height, with one ratio
  have key : ∀ a b : V2 K, Up a → Up b → 0 < |a.x| + |a.y| → 0 < |b.x| + |b.y| → a.x * (|b.x| + |b.y|) = b.x * (|a.x| + |a.y|) → a.cross b = 0 ∧ 0 < a.dot b := by
    intro a b ua ub pa pb h
    have ya := up_y ua
    have yb := up_y ub
    set s := |a.x| + |a.y|
    set t := |b.x| + |b.y|
    have e1 : |a.x| * t = |b.x| * s := by
      have := congrArg abs h
      rwa [abs_mul, abs_mul, abs_of_pos pa, abs_of_pos pb] at this
    have e2 : |a.x| + a.y = s := by rw [← abs_of_nonneg ya]
    have e3 : |b.x| + b.y = t := by rw [← abs_of_nonneg yb]
    have e4 : a.y * t = b.y * s := by
      have ea : a.y = s - |a.x| := by linarith
      have eb : b.y = t - |b.x| := by linarith
      rw [ea, eb]; linarith
    have c0 : a.cross b * (s * t) = 0 := by
      simp only [V2.cross]
      have : (a.x * b.y - a.y * b.x) * (s * t) = (a.x * t) * (b.y * s) - (a.y * t) * (b.x * s) := by ring
      rw [this, h, e4]; ring
    have d0 : a.dot b * (s * t) = (b.x * s) ^ 2 + (b.y * s) ^ 2 := by
      simp only [V2.dot]
      have : (a.x * b.x + a.y * b.y) * (s * t) = (a.x * t) * (b.x * s) + (a.y * t) * (b.y * s) := by ring
      rw [this, h, e4]; ring
    have st := mul_pos pa pb
    refine ⟨(mul_eq_zero.1 c0).resolve_right st.ne', ?_⟩
    have : 0 < (b.x * s) ^ 2 + (b.y * s) ^ 2 := by
      rcases ub with hy | ⟨-, hx⟩
      · have := mul_pos hy pa; positivity
      · have := mul_pos hx pa; positivity
    rw [← d0] at this
    exact (mul_pos_iff_of_pos_right st).1 this
  unfold angleKey at h
  split at h <;> split at h
  · rename_i ua ub
    refine key a b ua ub pa pb ?_
    have h' : a.x / (|a.x| + |a.y|) = b.x / (|b.x| + |b.y|) := by linarith
    rwa [div_eq_div_iff pa.ne' pb.ne'] at h'
  · rename_i ua ub
    have := ratio_up ua ha
    have := ratio_le hb
    linarith
  · rename_i ua ub
    have := ratio_le ha
    have := ratio_up ub hb
    linarith
  · rename_i ua ub
    have na := (up_or ha).resolve_left ua
    have nb := (up_or hb).resolve_left ub
    have h' : a.x / (|a.x| + |a.y|) = b.x / (|b.x| + |b.y|) := by linarith
    rw [div_eq_div_iff pa.ne' pb.ne'] at h'
    have := key a.neg b.neg na nb (by simpa [V2.neg] using pa) (by simpa [V2.neg] using pb) (by simp only [V2.neg, abs_neg]; linarith)
    simp only [V2.cross, V2.dot, V2.neg] at this ⊢
    exact ⟨by linarith [this.1], by linarith [this.2]⟩

/-! ## Answers which fill an arc of directions each -/

/-- A function of directions, of which each answer is given on one arc. -/
structure ArcLike {I : Type} (D : V2 K → Prop) (f : V2 K → I) : Prop where
  conv : ∀ n n' x, D n → D n' → D x → f n = f n' → 0 < n.cross x → 0 < x.cross n' → 0 < n.cross n' → f x = f n
  ray : ∀ n x, D n → D x → n.cross x = 0 → 0 < n.dot x → f x = f n
  opp : ∀ n n' x y, D n → D n' → D x → D y → f n = f n' → n.cross n' = 0 → n.dot n' < 0 → 0 < n.cross x → n.cross y < 0 → f x = f n ∨ f y = f n

theorem opp_of_far {a c : V2 K} (hc : c ≠ V2.zero) (ua : Up a) (uc : ¬ Up c) (h : a.cross c = 0) : a.dot c < 0 := by
  have nc := (up_or hc).resolve_left uc
  simp only [Up, V2.neg, Left.neg_pos_iff, neg_eq_zero] at ua nc
  simp only [V2.cross, V2.dot] at *
  rcases ua with ya | ⟨ya, xa⟩ <;> rcases nc with yc | ⟨yc, xc⟩
  · have : a.y * (a.x * c.x) = a.x ^ 2 * c.y := by have := congrArg (fun t => a.x * t) (sub_eq_zero.1 h); linarith
    have h1 : a.x ^ 2 * c.y ≤ 0 := mul_nonpos_of_nonneg_of_nonpos (sq_nonneg _) yc.le
    have h2 : a.x * c.x ≤ 0 := by by_contra hn; have := mul_pos ya (not_le.1 hn); linarith
    have := mul_neg_of_pos_of_neg ya yc
    linarith
  · rw [yc] at h ⊢
    have : a.y * c.x = 0 := by linarith
    rcases mul_eq_zero.1 this with z | z <;> linarith
  · rw [ya] at h ⊢
    have : a.x * c.y = 0 := by linarith
    rcases mul_eq_zero.1 this with z | z <;> linarith
  · have := mul_neg_of_pos_of_neg xa xc
    rw [ya]; linarith

section
variable {I J : Type} {D : V2 K → Prop} {f : V2 K → I} {g : V2 K → J}

theorem arc_13 (hf : ArcLike D f) (hD : ∀ w, D w → w ≠ V2.zero) {a b c d : V2 K} (da : D a) (db : D b) (dc : D c) (dd : D d)
    (ab : angleKey a < angleKey b) (bc : angleKey b < angleKey c) (cd : angleKey c < angleKey d) (h : f a = f c) : f b = f a ∨ f d = f a := by
  have kab := key_before (hD a da) (hD b db) ab
  have kbc := key_before (hD b db) (hD c dc) bc
  have kcd := key_before (hD c dc) (hD d dd) cd
  have kac := key_before (hD a da) (hD c dc) (ab.trans bc)
  rcases lt_trichotomy (a.cross c) 0 with hc | hc | hc
  · obtain ⟨h1, h2⟩ := before_after (hD c dc) (hD d dd) kac kcd hc.le
    right
    have := hf.conv c a d dc da dd h.symm h2 (by simp only [V2.cross] at *; linarith) (by simp only [V2.cross] at *; linarith)
    rw [this, h]
  · obtain ⟨h1, h2⟩ := before_after (hD c dc) (hD d dd) kac kcd hc.le
    have h3 := before_opp (hD b db) (hD c dc) kab kbc hc kac
    obtain ⟨ua, uc⟩ := before_far kac hc.le
    exact hf.opp a c b d da dc db dd h hc (opp_of_far (hD c dc) ua uc hc) h3 h1
  · obtain ⟨h1, h2⟩ := before_mid (hD b db) (hD c dc) kab kbc hc
    exact Or.inl (hf.conv a c b da dc db h h1 h2 hc)

theorem arc_24 (hf : ArcLike D f) (hD : ∀ w, D w → w ≠ V2.zero) {a b c d : V2 K} (da : D a) (db : D b) (dc : D c) (dd : D d)
    (ab : angleKey a < angleKey b) (bc : angleKey b < angleKey c) (cd : angleKey c < angleKey d) (h : f b = f d) : f a = f b ∨ f c = f b := by
  have kab := key_before (hD a da) (hD b db) ab
  have kbc := key_before (hD b db) (hD c dc) bc
  have kcd := key_before (hD c dc) (hD d dd) cd
  have kbd := key_before (hD b db) (hD d dd) (bc.trans cd)
  rcases lt_trichotomy (b.cross d) 0 with hc | hc | hc
  · obtain ⟨h1, h2⟩ := before_before (hD d dd) kab kbd hc.le
    left
    have := hf.conv d b a dd db da h.symm (by simp only [V2.cross] at *; linarith) h2 (by simp only [V2.cross] at *; linarith)
    rw [this, h]
  · obtain ⟨h1, h2⟩ := before_before (hD d dd) kab kbd hc.le
    have h3 := before_opp (hD c dc) (hD d dd) kbc kcd hc kbd
    obtain ⟨ub, ud⟩ := before_far kbd hc.le
    exact (hf.opp b d c a db dd dc da h hc (opp_of_far (hD d dd) ub ud hc) h3 (by simp only [V2.cross] at *; linarith)).symm
  · obtain ⟨h1, h2⟩ := before_mid (hD c dc) (hD d dd) kbc kcd hc
    exact Or.inr (hf.conv b d c db dd dc h h1 h2 hc)

/-- The direction just before another one, going around. -/
def IsPred (W : Finset (V2 K)) (w p : V2 K) : Prop :=
  p ∈ W ∧ ((angleKey p < angleKey w ∧ ∀ u ∈ W, angleKey u < angleKey w → angleKey u ≤ angleKey p)
    ∨ ((∀ u ∈ W, angleKey w ≤ angleKey u) ∧ ∀ u ∈ W, angleKey u ≤ angleKey p))

theorem pred_exists (W : Finset (V2 K)) {w : V2 K} (hw : w ∈ W) : ∃ p, IsPred W w p := by
  classical
  by_cases h : (W.filter fun u => angleKey u < angleKey w).Nonempty
  · obtain ⟨p, hp, hm⟩ := Finset.exists_max_image _ angleKey h
    rw [Finset.mem_filter] at hp
    exact ⟨p, hp.1, Or.inl ⟨hp.2, fun u hu hl => hm u (Finset.mem_filter.2 ⟨hu, hl⟩)⟩⟩
  · obtain ⟨p, hp, hm⟩ := Finset.exists_max_image W angleKey ⟨w, hw⟩
    refine ⟨p, hp, Or.inr ⟨fun u hu => ?_, hm⟩⟩
    by_contra hn
    exact h ⟨u, Finset.mem_filter.2 ⟨hu, not_le.1 hn⟩⟩

/-- Of two directions with one answer, one follows a direction with the same answer. -/
theorem arc_pred (hf : ArcLike D f) (hD : ∀ w, D w → w ≠ V2.zero) {W : Finset (V2 K)} (hW : ∀ w ∈ W, D w)
    (hk : ∀ u ∈ W, ∀ v ∈ W, angleKey u = angleKey v → u = v) {w w' p p' : V2 K} (mw : w ∈ W) (mw' : w' ∈ W)
    (hp : IsPred W w p) (hp' : IsPred W w' p') (hl : angleKey w < angleKey w') (h : f w = f w') (n1 : f p ≠ f w) (n2 : f p' ≠ f w') : False := by
  obtain ⟨mp, hp⟩ := hp
  obtain ⟨mp', hp'⟩ := hp'
  have h1 : angleKey p' < angleKey w' := by
    rcases hp' with hp' | hp'
    · exact hp'.1
    · exact absurd (hp'.1 w mw) (not_le.2 hl)
  have h2 : angleKey w ≤ angleKey p' := by
    rcases hp' with hp' | hp'
    · exact hp'.2 w mw hl
    · exact absurd (hp'.1 w mw) (not_le.2 hl)
  have h3 : angleKey w < angleKey p' := by
    refine lt_of_le_of_ne h2 fun e => ?_
    rw [← hk w mw p' mp' e] at n2
    exact n2 h
  rcases hp with ⟨hp, -⟩ | ⟨-, hp⟩
  · rcases arc_24 hf hD (hW p mp) (hW w mw) (hW p' mp') (hW w' mw') hp h3 h1 h with h' | h'
    · exact n1 h'
    · exact n2 (h'.trans h)
  · have h4 : angleKey w' < angleKey p := by
      refine lt_of_le_of_ne (hp w' mw') fun e => ?_
      rw [← hk w' mw' p mp e] at n1
      exact n1 h.symm
    rcases arc_13 hf hD (hW w mw) (hW p' mp') (hW w' mw') (hW p mp) h3 h1 h4 h with h' | h'
    · exact n2 (h'.trans h)
    · exact n1 h'

/-- Two functions whose answers fill an arc each give no more different pairs of answers than they have answers. -/
theorem arc_count [Fintype I] [Fintype J] (hf : ArcLike D f) (hg : ArcLike D g) (hD : ∀ w, D w → w ≠ V2.zero) (W : Finset (V2 K))
    (hW : ∀ w ∈ W, D w) (hi : ∀ u ∈ W, ∀ v ∈ W, f u = f v → g u = g v → u = v) : W.card ≤ Fintype.card I + Fintype.card J := by
  classical
  have hk : ∀ u ∈ W, ∀ v ∈ W, angleKey u = angleKey v → u = v := by
    intro u hu v hv e
    obtain ⟨c, d⟩ := key_eq (hD u (hW u hu)) (hD v (hW v hv)) e
    exact hi u hu v hv (hf.ray u v (hW u hu) (hW v hv) c d).symm (hg.ray u v (hW u hu) (hW v hv) c d).symm
  choose! pr hpr using fun (w : V2 K) (hw : w ∈ W) => pred_exists W hw
  let charge : V2 K → I ⊕ J := fun w => if f (pr w) ≠ f w then Sum.inl (f w) else Sum.inr (g w)
  have hinj : ∀ w ∈ W, ∀ w' ∈ W, angleKey w < angleKey w' → charge w ≠ charge w' := by
    intro w mw w' mw' hl e
    have gp : ∀ u ∈ W, ∀ v ∈ W, u ≠ v → ¬ f (pr u) ≠ f u → g (pr u) ≠ g u := by
      intro u hu v hv huv hfu hgu
      have hup := hi (pr u) (hpr u hu).1 u hu (not_not.1 hfu) hgu
      have hq := hpr u hu
      rw [hup] at hq
      rcases hq.2 with hq | hq
      · exact lt_irrefl _ hq.1
      · exact huv (hk u hu v hv (le_antisymm (hq.1 v hv) (hq.2 v hv)))
    have hne : w ≠ w' := by rintro rfl; exact lt_irrefl _ hl
    simp only [charge] at e
    split at e <;> split at e
    · rename_i c1 c2
      exact arc_pred hf hD hW hk mw mw' (hpr w mw) (hpr w' mw') hl (Sum.inl.inj e) c1 c2
    · cases e
    · cases e
    · rename_i c1 c2
      exact arc_pred hg hD hW hk mw mw' (hpr w mw) (hpr w' mw') hl (Sum.inr.inj e) (gp w mw w' mw' hne c1) (gp w' mw' w mw hne.symm c2)
  have := Finset.card_le_card_of_injOn (s := W) (t := (Finset.univ : Finset (I ⊕ J))) charge (fun _ _ => Finset.mem_coe.2 (Finset.mem_univ _)) (by
    intro w mw w' mw' e
    by_contra hn
    rcases lt_trichotomy (angleKey w) (angleKey w') with h | h | h
    · exact hinj w mw w' mw' h e
    · exact hn (hk w mw w' mw' h)
    · exact hinj w' mw' w mw h e.symm)
  rwa [Finset.card_univ, Fintype.card_sum] at this

end

/-! ## The support functions of the shapes are of this kind -/

/-- The first of the entries that are largest in the direction. -/
def FirstMax (l : List (V2 K)) (n : V2 K) (k : Nat) : Prop :=
  ∃ hk : k < l.length, (∀ j (hj : j < k), (l[j]'(hj.trans hk)).dot n < (l[k]).dot n) ∧ ∀ j (hj : j < l.length), (l[j]).dot n ≤ (l[k]).dot n

theorem firstMax_unique {l : List (V2 K)} {n : V2 K} {k k' : Nat} (h : FirstMax l n k) (h' : FirstMax l n k') : k = k' := by
  obtain ⟨hk, h1, h2⟩ := h
  obtain ⟨hk', h1', h2'⟩ := h'
  rcases lt_trichotomy k k' with hl | hl | hl
  · have := h1' k hl; have := h2 k' hk'; linarith
  · exact hl
  · have := h1 k' hl; have := h2' k hk; linarith

theorem supportIndexGo_first (n : V2 K) (l : List (Plane K)) : ∀ (i : Nat) (mx : K) (index : Nat),
    (supportIndexGo n l i mx index = index ∧ ∀ v ∈ l, v.v0.dot n ≤ mx) ∨
    ∃ k, supportIndexGo n l i mx index = i + k ∧ FirstMax (l.map Plane.v0) n k ∧ ∀ pl, l[k]? = some pl → mx < pl.v0.dot n := by
  induction l with
  | nil => intro i mx index; exact Or.inl ⟨rfl, by simp⟩
  | cons a l ih =>
    intro i mx index
    simp only [supportIndexGo]
    split
    · rename_i hgt
      right
      rcases ih (i + 1) (a.v0.dot n) i with ⟨e, hle⟩ | ⟨k, e, ⟨hk, h1, h2⟩, hgt'⟩
      · refine ⟨0, e, ⟨by simp, fun j hj => absurd hj (Nat.not_lt_zero _), fun j hj => ?_⟩, ?_⟩
        · rcases j with _ | j
          · exact le_refl _
          · simp only [List.map_cons, List.getElem_cons_succ, List.getElem_cons_zero, List.getElem_map]
            exact hle _ (List.getElem_mem _)
        · intro pl h; simp only [List.getElem?_cons_zero, Option.some.injEq] at h; rw [← h]; exact hgt
      · have hk' : k < l.length := by simpa using hk
        have hg := hgt' _ (List.getElem?_eq_getElem hk')
        refine ⟨k + 1, by rw [e]; omega, ⟨by simpa using hk', fun j hj => ?_, fun j hj => ?_⟩, ?_⟩
        · rcases j with _ | j
          · simpa using hg
          · simpa using h1 j (by omega)
        · rcases j with _ | j
          · simpa using hg.le
          · have hj' : j < (l.map Plane.v0).length := by simpa using hj
            have := h2 j hj'
            simpa using this
        · intro pl h
          simp only [List.getElem?_cons_succ] at h
          have := hgt' pl h
          linarith
    · rename_i hle
      rw [gt_iff_lt, not_lt] at hle
      rcases ih (i + 1) mx index with ⟨e, hle'⟩ | ⟨k, e, ⟨hk, h1, h2⟩, hgt'⟩
      · refine Or.inl ⟨e, fun v hv => ?_⟩
        rcases List.mem_cons.1 hv with rfl | hv
        · exact hle
        · exact hle' v hv
      · right
        have hk' : k < l.length := by simpa using hk
        have hg := hgt' _ (List.getElem?_eq_getElem hk')
        refine ⟨k + 1, by rw [e]; omega, ⟨by simpa using hk', fun j hj => ?_, fun j hj => ?_⟩, ?_⟩
        · rcases j with _ | j
          · simp only [List.map_cons, List.getElem_cons_succ, List.getElem_cons_zero, List.getElem_map]; linarith
          · simpa using h1 j (by omega)
        · rcases j with _ | j
          · simp only [List.map_cons, List.getElem_cons_succ, List.getElem_cons_zero, List.getElem_map]; linarith
          · have hj' : j < (l.map Plane.v0).length := by simpa using hj
            have := h2 j hj'
            simpa using this
        · intro pl h
          simp only [List.getElem?_cons_succ] at h
          exact hgt' pl h

theorem polySupport_first (inf : K) (l : List (Plane K)) (n : V2 K) (hl : l ≠ []) (hinf : ∀ v ∈ l, -inf < v.v0.dot n) :
    FirstMax (l.map Plane.v0) n (polySupportIndex inf l n) := by
  unfold polySupportIndex
  rcases supportIndexGo_first n l 0 (-inf) 0 with ⟨-, h⟩ | ⟨k, e, h, -⟩
  · obtain ⟨a, ha⟩ := List.exists_mem_of_ne_nil l hl
    exact absurd (h a ha) (not_le.2 (hinf a ha))
  · rw [e, Nat.zero_add]; exact h

theorem dot_mid (v n n' x : V2 K) : v.dot x * n.cross n' = x.cross n' * v.dot n + n.cross x * v.dot n' := by
  simp only [V2.dot, V2.cross]; ring

theorem dot_ray (v n x : V2 K) : v.dot x * n.lengthSq = n.dot x * v.dot n + n.cross x * v.dot n.perp := by
  simp only [V2.dot, V2.cross, V2.lengthSq, V2.perp]; ring

theorem lengthSq_pos_of {n : V2 K} (h : n ≠ V2.zero) : 0 < n.lengthSq := by
  simp only [V2.lengthSq, V2.dot]
  by_contra hn
  have h1 : n.x = 0 := by nlinarith [mul_self_nonneg n.x, mul_self_nonneg n.y]
  have h2 : n.y = 0 := by nlinarith [mul_self_nonneg n.x, mul_self_nonneg n.y]
  exact h (V2.ext h1 h2)

theorem firstMax_comb {l : List (V2 K)} {n n' x : V2 K} {k : Nat} {s t c : K} (hc : 0 < c) (hs : 0 < s) (ht : 0 ≤ t)
    (e : ∀ v : V2 K, v.dot x * c = s * v.dot n + t * v.dot n') (h : FirstMax l n k) (h' : FirstMax l n' k) : FirstMax l x k := by
  obtain ⟨hk, h1, h2⟩ := h
  obtain ⟨_, h1', h2'⟩ := h'
  refine ⟨hk, fun j hj => ?_, fun j hj => ?_⟩
  · refine lt_of_mul_lt_mul_right ?_ hc.le
    rw [e, e]
    have := mul_lt_mul_of_pos_left (h1 j hj) hs
    have := mul_le_mul_of_nonneg_left (h1' j hj).le ht
    linarith
  · refine le_of_mul_le_mul_right ?_ hc
    rw [e, e]
    have := mul_le_mul_of_nonneg_left (h2 j hj) hs.le
    have := mul_le_mul_of_nonneg_left (h2' j hj) ht
    linarith

/-- The directions met: not zero, and with coordinates up to four times the bound of the corners. -/
def Bounded (B : K) (n : V2 K) : Prop := n ≠ V2.zero ∧ |n.x| ≤ 4 * B ∧ |n.y| ≤ 4 * B

namespace Spec
/-- A polygon whose corners are not all on one line. -/
def Broad (s : Cls K) : Prop :=
  match s with
  | .poly p => ∀ n : V2 K, n ≠ V2.zero → ∃ v ∈ p.world.map Plane.v0, ∃ w ∈ p.world.map Plane.v0, v.dot n ≠ w.dot n
  | _ => True
end Spec

theorem bounded_inf {B inf : K} {s : Cls K} (hw : Within B s) (hinf : 8 * (B * B) < inf) {m : V2 K} (hm : Bounded B m) : ∀ v ∈ corners s, -inf < v.dot m := by
  intro v hv
  obtain ⟨a, b⟩ := hw v hv
  obtain ⟨-, hmx, hmy⟩ := hm
  have e1 : |v.x * m.x| ≤ B * (4 * B) := by
    rw [abs_mul]; exact mul_le_mul a hmx (abs_nonneg _) ((abs_nonneg _).trans a)
  have e2 : |v.y * m.y| ≤ B * (4 * B) := by
    rw [abs_mul]; exact mul_le_mul b hmy (abs_nonneg _) ((abs_nonneg _).trans b)
  rw [abs_le] at e1 e2
  simp only [V2.dot]
  linarith [e1.1, e2.1]

theorem support_arcs (inf B : K) (s : Cls K) (hs : corners s ≠ []) (hw : Within B s) (hinf : 8 * (B * B) < inf) (hb : Broad s) :
    ArcLike (Bounded B) (fun n => (s.support inf n).index) := by
  cases s with
  | circle c => exact ⟨fun _ _ _ _ _ _ _ _ _ _ => rfl, fun _ _ _ _ _ _ => rfl, fun _ _ _ _ _ _ _ _ _ _ _ _ _ => Or.inl rfl⟩
  | segment g =>
    have key : ∀ n : V2 K, ((Cls.segment g).support inf n).index = if 0 < (g.ta.sub g.tb).dot n then 0 else 1 := by
      intro n
      have : g.ta.dot n > g.tb.dot n ↔ 0 < (g.ta.sub g.tb).dot n := by
        have : (g.ta.sub g.tb).dot n = g.ta.dot n - g.tb.dot n := by simp only [V2.sub, V2.dot]; ring
        rw [this, sub_pos]
      simp only [Cls.support, this]
      split <;> rfl
    generalize g.ta.sub g.tb = e at key
    have small : ∀ n n' : V2 K, (if 0 < e.dot n then 0 else 1) = (if 0 < e.dot n' then 0 else 1) → (0 < e.dot n ↔ 0 < e.dot n') := by
      intro n n' h
      split at h <;> split at h <;> first | exact absurd h (by decide) | tauto
    refine ⟨?_, ?_, ?_⟩
    · intro n n' x _ _ _ h c1 c2 c3
      simp only [key] at h ⊢
      have hi := small _ _ h
      have d := dot_mid e n n' x
      have : 0 < e.dot x ↔ 0 < e.dot n := by
        constructor
        · intro hx
          by_contra hn
          have p1 := mul_pos hx c3
          have p2 := mul_nonneg c2.le (by linarith [not_lt.1 hn] : 0 ≤ -(e.dot n))
          have p3 := mul_nonneg c1.le (by linarith [not_lt.1 (fun h => hn (hi.2 h))] : 0 ≤ -(e.dot n'))
          linarith
        · intro hn
          have p2 := mul_pos c2 hn
          have p3 := mul_pos c1 (hi.1 hn)
          exact (mul_pos_iff_of_pos_right c3).1 (by linarith)
      simp only [this]
    · intro n x hn _ c d
      simp only [key]
      have hl := lengthSq_pos_of hn.1
      have dd := dot_ray e n x
      rw [c, zero_mul, add_zero] at dd
      have : 0 < e.dot x ↔ 0 < e.dot n := by
        rw [← mul_pos_iff_of_pos_right hl, dd, mul_pos_iff_of_pos_left d]
      simp only [this]
    · intro n n' x y hn _ _ _ h c d h1 h2
      simp only [key] at h ⊢
      have hi := small _ _ h
      have hl := lengthSq_pos_of hn.1
      have dd := dot_ray e n n'
      rw [c, zero_mul, add_zero] at dd
      have z : e.dot n = 0 := by
        rcases lt_trichotomy (e.dot n) 0 with z | z | z
        · have := mul_pos_of_neg_of_neg d z
          rw [← dd] at this
          exact absurd (hi.2 ((mul_pos_iff_of_pos_right hl).1 this)) (by linarith)
        · exact z
        · have := hi.1 z
          have := mul_pos this hl
          have := mul_neg_of_neg_of_pos d z
          linarith
      have dx := dot_ray e n x
      have dy := dot_ray e n y
      rw [z, mul_zero, zero_add] at dx dy
      have nn : ¬ (0 < e.dot n) := by rw [z]; exact lt_irrefl _
      by_cases hx : 0 < e.dot x
      · right
        have : ¬ 0 < e.dot y := by
          intro hy
          have p1 := mul_pos hx hl
          have p2 := mul_pos hy hl
          rw [dx] at p1
          rw [dy] at p2
          have := (mul_pos_iff_of_pos_left h1).1 p1
          have := mul_neg_of_neg_of_pos h2 this
          linarith
        rw [if_neg this, if_neg nn]
      · left; rw [if_neg hx, if_neg nn]
  | poly p =>
    have hl : p.world ≠ [] := by intro h; exact hs (by simp [corners, h])
    have first : ∀ n, Bounded B n → FirstMax (p.world.map Plane.v0) n ((Cls.poly p).support inf n).index := fun n hn =>
      polySupport_first inf p.world n hl (fun v hv => bounded_inf hw hinf hn _ (List.mem_map_of_mem hv))
    refine ⟨?_, ?_, ?_⟩
    · intro n n' x hn hn' hx h c1 c2 c3
      have f1 := first n hn
      have f2 := first n' hn'
      rw [← h] at f2
      exact firstMax_unique (first x hx) (firstMax_comb c3 c2 c1.le (fun v => dot_mid v n n' x) f1 f2)
    · intro n x hn hx c d
      have f1 := first n hn
      exact firstMax_unique (first x hx) (firstMax_comb (lengthSq_pos_of hn.1) d (le_refl 0) (fun v => by rw [dot_ray, c, zero_mul, zero_mul]) f1 f1)
    · intro n n' x y hn hn' _ _ h c d _ _
      exfalso
      obtain ⟨hk, -, m1⟩ := first n hn
      have f2 := first n' hn'
      rw [← h] at f2
      obtain ⟨_, _, m2⟩ := f2
      have hl := lengthSq_pos_of hn.1
      have all : ∀ v ∈ p.world.map Plane.v0, v.dot n = ((p.world.map Plane.v0)[((Cls.poly p).support inf n).index]).dot n := by
        intro v hv
        obtain ⟨j, hj, rfl⟩ := List.getElem_of_mem hv
        refine le_antisymm (m1 j hj) ?_
        have q := mul_le_mul_of_nonneg_right (m2 j hj) hl.le
        rw [dot_ray, dot_ray, c, zero_mul, zero_mul, add_zero, add_zero] at q
        exact (mul_le_mul_left_of_neg d).1 q
      obtain ⟨v, hv, w, hw', hne⟩ := hb n hn.1
      exact hne ((all v hv).trans (all w hw').symm)

theorem arcs_neg {I : Type} {B : K} {f : V2 K → I} (h : ArcLike (Bounded B) f) : ArcLike (Bounded B) (fun n => f n.neg) := by
  have hb : ∀ n : V2 K, Bounded B n → Bounded B n.neg := by
    rintro n ⟨h1, h2, h3⟩
    refine ⟨fun e => h1 ?_, by simpa [V2.neg] using h2, by simpa [V2.neg] using h3⟩
    have := congrArg V2.neg e
    rw [neg_neg'] at this
    rw [this]; simp [V2.neg, V2.zero]
  have hc : ∀ a b : V2 K, a.neg.cross b.neg = a.cross b := by intro a b; simp only [V2.cross, V2.neg]; ring
  have hd : ∀ a b : V2 K, a.neg.dot b.neg = a.dot b := by intro a b; simp only [V2.dot, V2.neg]; ring
  refine ⟨?_, ?_, ?_⟩
  · intro n n' x hn hn' hx e c1 c2 c3
    exact h.conv _ _ _ (hb n hn) (hb n' hn') (hb x hx) e (by rwa [hc]) (by rwa [hc]) (by rwa [hc])
  · intro n x hn hx c d
    exact h.ray _ _ (hb n hn) (hb x hx) (by rwa [hc]) (by rwa [hd])
  · intro n n' x y hn hn' hx hy e c d c1 c2
    exact h.opp _ _ _ _ (hb n hn) (hb n' hn') (hb x hx) (hb y hy) e (by rwa [hc]) (by rwa [hd]) (by rwa [hc]) (by rwa [hc])

theorem arcs_fin {D : V2 K → Prop} {f : V2 K → Nat} {N : Nat} (h : ArcLike D f) (hN : ∀ n, f n < N) : ArcLike D (fun n => (⟨f n, hN n⟩ : Fin N)) := by
  refine ⟨?_, ?_, ?_⟩
  · intro n n' x hn hn' hx e c1 c2 c3
    exact Fin.ext (h.conv _ _ _ hn hn' hx (Fin.mk.inj e) c1 c2 c3)
  · intro n x hn hx c d
    exact Fin.ext (h.ray _ _ hn hx c d)
  · intro n n' x y hn hn' hx hy e c d c1 c2
    exact (h.opp _ _ _ _ hn hn' hx hy (Fin.mk.inj e) c d c1 c2).imp Fin.ext Fin.ext

theorem support_index_lt (inf : K) (s : Cls K) (hs : corners s ≠ []) (n : V2 K) : (s.support inf n).index < (corners s).length := by
  cases s with
  | circle c => simp [Cls.support, corners]
  | segment g => simp only [Cls.support, corners]; split <;> simp
  | poly p =>
    have hl : p.world ≠ [] := by intro h; exact hs (by simp [corners, h])
    simpa [Cls.support, corners] using polySupportIndex_lt inf p.world n hl

theorem support_of_index (inf : K) (s : Cls K) (hs : corners s ≠ []) (n n' : V2 K) (h : (s.support inf n).index = (s.support inf n').index) :
    s.support inf n = s.support inf n' := by
  rw [← (support_spec inf s n hs).2.1, ← (support_spec inf s n' hs).2.1, h]

/-- In all directions together, the support function of the difference of two shapes gives no more different points than the shapes have corners together. -/
theorem support_count (inf B : K) (ctx : Ctx K) (hs : Solid ctx) (hw1 : Within B ctx.s1) (hw2 : Within B ctx.s2) (hinf : 8 * (B * B) < inf)
    (hb1 : Broad ctx.s1) (hb2 : Broad ctx.s2) :
    ∃ R : Finset (V2 K), (∀ n, Bounded B n → (ctx.support inf n).ab ∈ R) ∧ R.card ≤ (corners ctx.s1).length + (corners ctx.s2).length := by
  classical
  let all : Finset (V2 K) := ((corners ctx.s1).toFinset ×ˢ (corners ctx.s2).toFinset).image fun ab => ab.2.sub ab.1
  refine ⟨all.filter fun x => ∃ n, Bounded B n ∧ (ctx.support inf n).ab = x, fun n hn => ?_, ?_⟩
  · obtain ⟨m1, m2, e⟩ := support_ok inf ctx hs.1 hs.2 n
    exact Finset.mem_filter.2 ⟨Finset.mem_image.2 ⟨(_, _), Finset.mem_product.2 ⟨List.mem_toFinset.2 m1, List.mem_toFinset.2 m2⟩, e.symm⟩, n, hn, rfl⟩
  · generalize hR : all.filter (fun x => ∃ n, Bounded B n ∧ (ctx.support inf n).ab = x) = R
    have wit : ∀ x ∈ R, ∃ n, Bounded B n ∧ (ctx.support inf n).ab = x := by
      intro x hx; rw [← hR] at hx; exact (Finset.mem_filter.1 hx).2
    choose! w hw using wit
    have a1 := arcs_fin (arcs_neg (support_arcs inf B ctx.s1 hs.1 hw1 hinf hb1)) (fun n => support_index_lt inf ctx.s1 hs.1 n.neg)
    have a2 := arcs_fin (support_arcs inf B ctx.s2 hs.2 hw2 hinf hb2) (fun n => support_index_lt inf ctx.s2 hs.2 n)
    have hc : (R.image w).card = R.card := Finset.card_image_of_injOn (fun x hx y hy e => by
      rw [← (hw x hx).2, ← (hw y hy).2, e])
    rw [← hc]
    have := arc_count a1 a2 (fun n hn => hn.1) (R.image w)
      (by intro n hn; obtain ⟨x, hx, rfl⟩ := Finset.mem_image.1 hn; exact (hw x hx).1)
      (by
        intro u hu v hv e1 e2
        obtain ⟨x, hx, rfl⟩ := Finset.mem_image.1 hu
        obtain ⟨y, hy, rfl⟩ := Finset.mem_image.1 hv
        have s1 := support_of_index inf ctx.s1 hs.1 _ _ (Fin.mk.inj e1)
        have s2 := support_of_index inf ctx.s2 hs.2 _ _ (Fin.mk.inj e2)
        have : ctx.support inf (w x) = ctx.support inf (w y) := by simp only [Ctx.support]; rw [s1, s2]
        have hxy : x = y := by rw [← (hw x hx).2, ← (hw y hy).2, this]
        rw [hxy])
    simpa using this

end Cm
