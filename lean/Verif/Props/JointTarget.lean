import Verif.Props.JointMomentum
import Mathlib.Tactic.Positivity
/-! # C39, C40, C68: what joints achieve -/
set_option linter.unusedSectionVars false
set_option linter.unusedSimpArgs false
set_option linter.unusedVariables false

namespace Cm
open Spec
variable {K : Type} [Field K] [LinearOrder K] [IsStrictOrderedRing K]

/-! ## Specification -/

namespace Spec
/-- The speed at which a joint may correct an error of size `err`: the fraction left after `dt` of it, per unit
time, but at most `maxBias`. -/
def correction (M : Mth K) (cfg : JointCfg K) (dt err : K) : K :=
  clamp ((1 - M.pow cfg.errorBias dt) * err / dt) (-cfg.maxBias) cfg.maxBias

/-- The vector from the anchor on `a` to the anchor on `b`. -/
def gap (a b : Body K) (anchorA anchorB : V2 K) : V2 K :=
  (b.p.add (anchorOffset b anchorB)).sub (a.p.add (anchorOffset a anchorA))

/-- Inverse masses are not negative and at least one body can be moved. -/
def Movable (a b : Body K) : Prop :=
  0 ≤ a.mInv ∧ 0 ≤ b.mInv ∧ 0 ≤ a.iInv ∧ 0 ≤ b.iInv ∧ 0 < a.mInv + b.mInv
/-- The same for turning. -/
def Turnable (a b : Body K) : Prop := 0 ≤ a.iInv ∧ 0 ≤ b.iInv ∧ 0 < a.iInv + b.iInv

/-- The velocity of `b`'s anchor relative to that of `a`. -/
def relVel (a b : Body K) (r1 r2 : V2 K) : V2 K :=
  ⟨(pointVel b r2).x - (pointVel a r1).x, (pointVel b r2).y - (pointVel a r1).y⟩
end Spec

theorem clamp_neg (x m : K) (hm : 0 ≤ m) : clamp (-x) (-m) m = -clamp x (-m) m := by
  rw [clamp_eq _ _ _ (by linarith), clamp_eq _ _ _ (by linarith)]
  rcases le_total x m with h | h <;> rcases le_total (-m) x with h' | h' <;>
    simp only [min_def, max_def] <;> split_ifs <;> linarith

theorem kScalar_pos {a b : Body K} (h : Movable a b) (r1 r2 n : V2 K) : 0 < kScalar a b r1 r2 n := by
  obtain ⟨h1, h2, h3, h4, h5⟩ := h
  simp only [kScalar, kScalarBody]
  have e1 : 0 ≤ a.iInv * r1.cross n * r1.cross n := by rw [mul_assoc]; exact mul_nonneg h3 (mul_self_nonneg _)
  have e2 : 0 ≤ b.iInv * r2.cross n * r2.cross n := by rw [mul_assoc]; exact mul_nonneg h4 (mul_self_nonneg _)
  linarith

theorem approach_scale (a b : Body K) (r1 r2 n : V2 K) (hn : n.x ^ 2 + n.y ^ 2 = 1) (j : K) :
    approach (applyImpulses a b r1 r2 (n.scale j)).1 (applyImpulses a b r1 r2 (n.scale j)).2 r1 r2 n
      = approach a b r1 r2 n + j * kScalar a b r1 r2 n := by
  simp only [approach, pointVel, applyImpulses, V2.scale, kScalar, kScalarBody, V2.cross]
  linear_combination j * (a.mInv + b.mInv) * hn

theorem SameBut.kScalar {a b a' b' : Body K} (ha : SameBut a a') (hb : SameBut b b') (r1 r2 n : V2 K) :
    kScalar a' b' r1 r2 n = kScalar a b r1 r2 n := by
  rw [ha, hb]; rfl

theorem SameBut.kTensor {a b a' b' : Body K} (ha : SameBut a a') (hb : SameBut b b') (r1 r2 : V2 K) :
    kTensor a' b' r1 r2 = kTensor a b r1 r2 := by
  rw [ha, hb]; rfl

/-! ## C39 -/

/-- **C39**, pin joint: prepared at `a0`, `b0` and applied when their velocities may have changed, an iteration
whose impulse stays within the limit makes the anchors part at exactly the rate correcting the length. -/
theorem C39_pin {M : Mth K} (hM : M.Lawful) (inf dt : K) (j : PinJoint K) (a0 b0 a b : Body K)
    (ha : SameBut a0 a) (hb : SameBut b0 b) (hm : Movable a0 b0) (hg : gap a0 b0 j.anchorA j.anchorB ≠ V2.zero) :
    let g := gap a0 b0 j.anchorA j.anchorB
    let t := (j.preStep M inf a0 b0 dt).applyImpulse a b dt
    |t.2.2.jnAcc| < j.maxForce * dt →
    approach t.1 t.2.1 (anchorOffset a0 j.anchorA) (anchorOffset b0 j.anchorB) (g.scale (1 / g.mag M))
      = correction M j.toJointCfg dt (j.dist - g.mag M) := by
  intro g t hlim
  have hgm : g.mag M ≠ 0 := fun e => hg (mag_eq_zero hM _ e)
  have hg' : b0.p.add ((anchorOffset b0 j.anchorB).sub (a0.p.add (anchorOffset a0 j.anchorA))) = g := by
    refine V2.ext ?_ ?_ <;> simp only [g, gap, V2.add, V2.sub] <;> ring
  have hn := mag_scale_inv hM g hg
  have ht : t = (j.preStep M inf a0 b0 dt).applyImpulse a b dt := rfl
  simp only [PinJoint.applyImpulse, PinJoint.preStep, hg', if_pos hgm] at ht
  rw [ht] at hlim ⊢
  simp only at hlim ⊢
  have hnon : -(j.maxForce * dt) ≤ j.maxForce * dt := by have := abs_nonneg (t.2.2.jnAcc); rw [ht] at this; linarith
  have hc := clamp_inside _ _ _ hnon (abs_lt.1 hlim).1 (abs_lt.1 hlim).2
  rw [hc, approach_scale _ _ _ _ _ hn, normalRelativeVelocity_eq, SameBut.kScalar ha hb]
  have hk := ne_of_gt (kScalar_pos hm (anchorOffset a0 j.anchorA) (anchorOffset b0 j.anchorB) (g.scale (1 / g.mag M)))
  have hcorr : clamp (-biasCoef M j.errorBias dt * (g.mag M - j.dist) / dt) (-j.maxBias) j.maxBias
      = correction M j.toJointCfg dt (j.dist - g.mag M) := by
    simp only [correction, biasCoef]; congr 1; ring
  rw [hcorr]
  generalize correction M j.toJointCfg dt (j.dist - g.mag M) = target
  generalize kScalar a0 b0 (anchorOffset a0 j.anchorA) (anchorOffset b0 j.anchorB) (g.scale (1 / g.mag M)) = k at hk
  field_simp
  ring

/-- The vector part of slide joints: `n` is the direction in which the anchors may not go further. -/
theorem slide_step (j : SlideJoint K) (a b : Body K) (dt : K) (hn : j.n.x ^ 2 + j.n.y ^ 2 = 1)
    (hk : 0 < kScalar a b j.r1 j.r2 j.n) (hnm : j.nMass = 1 / kScalar a b j.r1 j.r2 j.n) (hf : 0 ≤ j.maxForce * dt) :
    let t := j.applyImpulse a b dt
    (-(j.maxForce * dt) < t.2.2.jnAcc → t.2.2.jnAcc < 0 → approach t.1 t.2.1 j.r1 j.r2 j.n = j.bias) ∧
    (-(j.maxForce * dt) < t.2.2.jnAcc → t.2.2.jnAcc = 0 → approach t.1 t.2.1 j.r1 j.r2 j.n ≤ j.bias) := by
  intro t
  have hne : j.n ≠ V2.zero := by intro e; rw [e] at hn; simp [V2.zero] at hn
  have ht : t = j.applyImpulse a b dt := rfl
  rw [SlideJoint.applyImpulse, if_neg hne] at ht
  have hmul : j.nMass * kScalar a b j.r1 j.r2 j.n = 1 := by rw [hnm]; field_simp
  have hlo : -j.maxForce * dt ≤ 0 := by linarith [neg_mul j.maxForce dt]
  have hv : (relativeVelocity a b j.r1 j.r2).dot j.n = approach a b j.r1 j.r2 j.n := normalRelativeVelocity_eq a b j.r1 j.r2 j.n
  rw [ht]
  simp only [hv]
  constructor
  · intro h1 h2
    rw [clamp_inside _ _ _ hlo (lt_of_eq_of_lt (neg_mul _ _) h1) h2, approach_scale _ _ _ _ _ hn]
    linear_combination (j.bias - approach a b j.r1 j.r2 j.n) * hmul
  · intro h1 h2
    rw [approach_scale _ _ _ _ _ hn, h2]
    have : 0 ≤ j.jnAcc + (j.bias - approach a b j.r1 j.r2 j.n) * j.nMass := by
      rw [clamp_eq _ _ _ hlo] at h2
      by_contra hc
      rw [not_le] at hc
      rw [min_eq_left (le_of_lt hc)] at h2
      rcases max_choice (-j.maxForce * dt) (j.jnAcc + (j.bias - approach a b j.r1 j.r2 j.n) * j.nMass) with h | h
      · rw [h] at h2
        rw [clamp_eq _ _ _ hlo, min_eq_left (le_of_lt hc), h, h2] at h1
        linarith [neg_mul j.maxForce dt]
      · rw [h] at h2; linarith
    have h3 := mul_nonneg this (le_of_lt hk)
    have h4 : (j.jnAcc + (j.bias - approach a b j.r1 j.r2 j.n) * j.nMass) * kScalar a b j.r1 j.r2 j.n
        = j.jnAcc * kScalar a b j.r1 j.r2 j.n + (j.bias - approach a b j.r1 j.r2 j.n) := by
      linear_combination (j.bias - approach a b j.r1 j.r2 j.n) * hmul
    rw [h4] at h3
    linarith

/-- **C39**, slide joint stretched beyond its maximum: while the impulse is strictly within its limits the anchors
approach at exactly the correcting rate; if no impulse is needed they already approach at least that fast. -/
theorem C39_slide_long {M : Mth K} (hM : M.Lawful) (dt : K) (j : SlideJoint K) (a0 b0 a b : Body K)
    (ha : SameBut a0 a) (hb : SameBut b0 b) (hm : Movable a0 b0) (hf : 0 ≤ j.maxForce * dt)
    (h0 : 0 ≤ j.max) (hlong : j.max < (gap a0 b0 j.anchorA j.anchorB).mag M) :
    let g := gap a0 b0 j.anchorA j.anchorB
    let t := (j.preStep M a0 b0 dt).applyImpulse a b dt
    let rate := approach t.1 t.2.1 (anchorOffset a0 j.anchorA) (anchorOffset b0 j.anchorB) (g.scale (1 / g.mag M))
    (-(j.maxForce * dt) < t.2.2.jnAcc → t.2.2.jnAcc < 0 → rate = correction M j.toJointCfg dt (j.max - g.mag M)) ∧
    (-(j.maxForce * dt) < t.2.2.jnAcc → t.2.2.jnAcc = 0 → rate ≤ correction M j.toJointCfg dt (j.max - g.mag M)) := by
  intro g t rate
  have hg : g ≠ V2.zero := by
    intro e
    have := mag_zero (K := K) hM
    rw [← e] at this
    simp only [g] at this
    rw [this] at hlong; linarith
  have hn := mag_scale_inv hM g hg
  have e1 : (j.preStep M a0 b0 dt).n = g.scale (1 / g.mag M) := by
    simp only [SlideJoint.preStep]
    rw [if_pos (show ((b0.p.add (anchorOffset b0 j.anchorB)).sub (a0.p.add (anchorOffset a0 j.anchorA))).mag M > j.max from hlong)]
    rfl
  have e2 : (j.preStep M a0 b0 dt).bias = correction M j.toJointCfg dt (j.max - g.mag M) := by
    simp only [SlideJoint.preStep]
    rw [if_pos (show ((b0.p.add (anchorOffset b0 j.anchorB)).sub (a0.p.add (anchorOffset a0 j.anchorA))).mag M > j.max from hlong)]
    simp only [correction, biasCoef]
    congr 1
    simp only [g, gap]
    ring
  have key := slide_step (j.preStep M a0 b0 dt) a b dt (by rw [e1]; exact hn)
    (by rw [SameBut.kScalar ha hb]; exact kScalar_pos hm _ _ _) (by rw [SameBut.kScalar ha hb]; rfl) hf
  rw [e1, e2] at key
  exact key

/-- **C39**, slide joint pressed below its minimum: the anchors part at exactly the correcting rate, or faster when
no impulse is needed. The direction is from `b`'s anchor to `a`'s. -/
theorem C39_slide_short {M : Mth K} (hM : M.Lawful) (dt : K) (j : SlideJoint K) (a0 b0 a b : Body K)
    (ha : SameBut a0 a) (hb : SameBut b0 b) (hm : Movable a0 b0) (hf : 0 ≤ j.maxForce * dt)
    (hg : gap a0 b0 j.anchorA j.anchorB ≠ V2.zero) (hmm : j.min ≤ j.max)
    (hshort : (gap a0 b0 j.anchorA j.anchorB).mag M < j.min) :
    let g := gap a0 b0 j.anchorA j.anchorB
    let t := (j.preStep M a0 b0 dt).applyImpulse a b dt
    let rate := approach t.1 t.2.1 (anchorOffset a0 j.anchorA) (anchorOffset b0 j.anchorB) (g.scale (1 / g.mag M)).neg
    (-(j.maxForce * dt) < t.2.2.jnAcc → t.2.2.jnAcc < 0 → rate = correction M j.toJointCfg dt (g.mag M - j.min)) ∧
    (-(j.maxForce * dt) < t.2.2.jnAcc → t.2.2.jnAcc = 0 → rate ≤ correction M j.toJointCfg dt (g.mag M - j.min)) := by
  intro g t rate
  have hn := mag_scale_inv hM g hg
  have c1 : ¬ ((b0.p.add (anchorOffset b0 j.anchorB)).sub (a0.p.add (anchorOffset a0 j.anchorA))).mag M > j.max :=
    not_lt.2 (le_of_lt (lt_of_lt_of_le hshort hmm))
  have c2 : ((b0.p.add (anchorOffset b0 j.anchorB)).sub (a0.p.add (anchorOffset a0 j.anchorA))).mag M < j.min := hshort
  have e1 : (j.preStep M a0 b0 dt).n = (g.scale (1 / g.mag M)).neg := by
    simp only [SlideJoint.preStep]
    rw [if_neg c1, if_pos c2]
    rfl
  have e2 : (j.preStep M a0 b0 dt).bias = correction M j.toJointCfg dt (g.mag M - j.min) := by
    simp only [SlideJoint.preStep]
    rw [if_neg c1, if_pos c2]
    simp only [correction, biasCoef]
    congr 1
    simp only [g, gap]
    ring
  have key := slide_step (j.preStep M a0 b0 dt) a b dt (by rw [e1]; simp only [V2.neg]; linear_combination hn)
    (by rw [SameBut.kScalar ha hb]; exact kScalar_pos hm _ _ _) (by rw [SameBut.kScalar ha hb]; rfl) hf
  rw [e1, e2] at key
  exact key

theorem kTensor_det {a b : Body K} (h : Movable a b) (r1 r2 : V2 K) :
    0 < (a.mInv + b.mInv + r1.y * r1.y * a.iInv + r2.y * r2.y * b.iInv) *
      (a.mInv + b.mInv + r1.x * r1.x * a.iInv + r2.x * r2.x * b.iInv) -
      (-r1.x * r1.y * a.iInv + -r2.x * r2.y * b.iInv) * (-r1.x * r1.y * a.iInv + -r2.x * r2.y * b.iInv) := by
  obtain ⟨h1, h2, h3, h4, h5⟩ := h
  have e : (a.mInv + b.mInv + r1.y * r1.y * a.iInv + r2.y * r2.y * b.iInv) *
      (a.mInv + b.mInv + r1.x * r1.x * a.iInv + r2.x * r2.x * b.iInv) -
      (-r1.x * r1.y * a.iInv + -r2.x * r2.y * b.iInv) * (-r1.x * r1.y * a.iInv + -r2.x * r2.y * b.iInv)
      = (a.mInv + b.mInv) ^ 2 + (a.mInv + b.mInv) * ((r1.x ^ 2 + r1.y ^ 2) * a.iInv + (r2.x ^ 2 + r2.y ^ 2) * b.iInv)
        + a.iInv * b.iInv * (r1.x * r2.y - r1.y * r2.x) ^ 2 := by ring
  rw [e]
  have p1 : 0 < (a.mInv + b.mInv) ^ 2 := by positivity
  have p2 : 0 ≤ (a.mInv + b.mInv) * ((r1.x ^ 2 + r1.y ^ 2) * a.iInv + (r2.x ^ 2 + r2.y ^ 2) * b.iInv) := by positivity
  have p3 : 0 ≤ a.iInv * b.iInv * (r1.x * r2.y - r1.y * r2.x) ^ 2 := by positivity
  linarith

/-- The impulse `kTensor` computes makes the relative velocity equal to the wanted one. -/
theorem kTensor_solves {a b : Body K} (h : Movable a b) (r1 r2 want : V2 K) :
    let j := (kTensor a b r1 r2).transform (want.sub (relativeVelocity a b r1 r2))
    relVel (applyImpulses a b r1 r2 j).1 (applyImpulses a b r1 r2 j).2 r1 r2 = want := by
  intro j
  have hd := ne_of_gt (kTensor_det h r1 r2)
  set v := want.sub (relativeVelocity a b r1 r2) with hv
  have hj : j = (kTensor a b r1 r2).transform v := rfl
  have hrv : relativeVelocity a b r1 r2 = relVel a b r1 r2 := by
    refine V2.ext ?_ ?_ <;> simp only [relativeVelocity, relVel, pointVel, V2.add, V2.sub, V2.scale, V2.perp] <;> ring
  rw [hrv] at hv
  have hx : want.x = v.x + (relVel a b r1 r2).x := by rw [hv]; simp [V2.sub]
  have hy : want.y = v.y + (relVel a b r1 r2).y := by rw [hv]; simp [V2.sub]
  have jx : j.x * ((a.mInv + b.mInv + r1.y * r1.y * a.iInv + r2.y * r2.y * b.iInv) *
      (a.mInv + b.mInv + r1.x * r1.x * a.iInv + r2.x * r2.x * b.iInv) -
      (-r1.x * r1.y * a.iInv + -r2.x * r2.y * b.iInv) * (-r1.x * r1.y * a.iInv + -r2.x * r2.y * b.iInv))
      = v.x * (a.mInv + b.mInv + r1.x * r1.x * a.iInv + r2.x * r2.x * b.iInv)
        - v.y * (-r1.x * r1.y * a.iInv + -r2.x * r2.y * b.iInv) := by
    rw [hj]
    simp only [kTensor, Mat2x2.transform, zero_add]
    generalize (a.mInv + b.mInv + r1.y * r1.y * a.iInv + r2.y * r2.y * b.iInv) *
      (a.mInv + b.mInv + r1.x * r1.x * a.iInv + r2.x * r2.x * b.iInv) -
      (-r1.x * r1.y * a.iInv + -r2.x * r2.y * b.iInv) * (-r1.x * r1.y * a.iInv + -r2.x * r2.y * b.iInv) = D at hd ⊢
    field_simp
    ring
  have jy : j.y * ((a.mInv + b.mInv + r1.y * r1.y * a.iInv + r2.y * r2.y * b.iInv) *
      (a.mInv + b.mInv + r1.x * r1.x * a.iInv + r2.x * r2.x * b.iInv) -
      (-r1.x * r1.y * a.iInv + -r2.x * r2.y * b.iInv) * (-r1.x * r1.y * a.iInv + -r2.x * r2.y * b.iInv))
      = -v.x * (-r1.x * r1.y * a.iInv + -r2.x * r2.y * b.iInv)
        + v.y * (a.mInv + b.mInv + r1.y * r1.y * a.iInv + r2.y * r2.y * b.iInv) := by
    rw [hj]
    simp only [kTensor, Mat2x2.transform, zero_add]
    generalize (a.mInv + b.mInv + r1.y * r1.y * a.iInv + r2.y * r2.y * b.iInv) *
      (a.mInv + b.mInv + r1.x * r1.x * a.iInv + r2.x * r2.x * b.iInv) -
      (-r1.x * r1.y * a.iInv + -r2.x * r2.y * b.iInv) * (-r1.x * r1.y * a.iInv + -r2.x * r2.y * b.iInv) = D at hd ⊢
    field_simp
  refine V2.ext ?_ ?_
  · rw [hx]
    apply mul_right_cancel₀ hd
    simp only [relVel, pointVel, applyImpulses]
    linear_combination (a.mInv + b.mInv + r1.y * r1.y * a.iInv + r2.y * r2.y * b.iInv) * jx
      + (-r1.x * r1.y * a.iInv + -r2.x * r2.y * b.iInv) * jy
  · rw [hy]
    apply mul_right_cancel₀ hd
    simp only [relVel, pointVel, applyImpulses]
    linear_combination (-r1.x * r1.y * a.iInv + -r2.x * r2.y * b.iInv) * jx
      + (a.mInv + b.mInv + r1.x * r1.x * a.iInv + r2.x * r2.x * b.iInv) * jy

/-- **C39**, pivot joint: within the force limit, one iteration gives the anchors exactly the correcting relative
velocity, as a vector. -/
theorem C39_pivot {M : Mth K} (hM : M.Lawful) (dt : K) (j : PivotJoint K) (a0 b0 a b : Body K)
    (ha : SameBut a0 a) (hb : SameBut b0 b) (hm : Movable a0 b0) :
    let g := gap a0 b0 j.anchorA j.anchorB
    let t := (j.preStep M a0 b0 dt).applyImpulse M a b dt
    t.2.2.jAcc.lengthSq < (j.maxForce * dt) * (j.maxForce * dt) →
    relVel t.1 t.2.1 (anchorOffset a0 j.anchorA) (anchorOffset b0 j.anchorB)
      = (g.scale (-(1 - M.pow j.errorBias dt) / dt)).clampMag M j.maxBias := by
  intro g t hlim
  have ht : t = (j.preStep M a0 b0 dt).applyImpulse M a b dt := rfl
  simp only [PivotJoint.applyImpulse, PivotJoint.preStep] at ht
  rw [ht] at hlim ⊢
  simp only at hlim ⊢
  have hm' : Movable a b := by
    rw [ha, hb]; exact hm
  rw [clampMag_inside hM _ _ hlim]
  have e : ∀ u v : V2 K, (u.add v).sub u = v := by
    intro u v; refine V2.ext ?_ ?_ <;> simp [V2.add, V2.sub]
  rw [e, ← SameBut.kTensor ha hb, kTensor_solves hm']
  rfl

/-- **C39**, groove joint at a stop of the groove that it presses against: it acts as a pivot. -/
theorem C39_groove_stop {M : Mth K} (hM : M.Lawful) (dt : K) (j : GrooveJoint K) (a0 b0 a b : Body K)
    (ha : SameBut a0 a) (hb : SameBut b0 b) (hm : Movable a0 b0) :
    let p := j.preStep M a0 b0 dt
    let t := p.applyImpulse M a b dt
    let want := p.jAcc.add (p.k.transform (p.bias.sub (relativeVelocity a b p.r1 p.r2)))
    0 < p.clamp * want.cross p.grooveTn →
    t.2.2.jAcc.lengthSq < (j.maxForce * dt) * (j.maxForce * dt) →
    relVel t.1 t.2.1 p.r1 p.r2 = p.bias := by
  intro p t want hpos hlim
  have ht : t = p.applyImpulse M a b dt := rfl
  simp only [GrooveJoint.applyImpulse, GrooveJoint.grooveConstrain] at ht
  rw [ht] at hlim ⊢
  have hw : p.jAcc.add (p.k.transform (p.bias.sub (relativeVelocity a b p.r1 p.r2))) = want := rfl
  rw [hw, if_pos hpos] at hlim ⊢
  simp only at hlim ⊢
  have hm' : Movable a b := by
    rw [ha, hb]; exact hm
  have hf : p.maxForce = j.maxForce := rfl
  rw [hf] at hlim ⊢
  rw [clampMag_inside hM _ _ hlim]
  have e : ∀ u v : V2 K, (u.add v).sub u = v := by
    intro u v; refine V2.ext ?_ ?_ <;> simp [V2.add, V2.sub]
  have hk : p.k = kTensor a b p.r1 p.r2 := by rw [SameBut.kTensor ha hb]; rfl
  rw [show want = p.jAcc.add (p.k.transform (p.bias.sub (relativeVelocity a b p.r1 p.r2))) from rfl, e, hk,
    kTensor_solves hm']

theorem spin_rate (a b : Body K) (j : K) : (spin a b j 1).2.w - (spin a b j 1).1.w = b.w - a.w + j * (a.iInv + b.iInv) := by
  simp only [spin]; ring

theorem Spec.SameBut.iInv {a a' : Body K} (h : SameBut a a') : a'.iInv = a.iInv := by rw [h]

/-- **C39**, motor: within the force limit the relative rate becomes `rate` (of `a` relative to `b`). -/
theorem C39_motor (dt : K) (j : SimpleMotor K) (a0 b0 a b : Body K)
    (ha : SameBut a0 a) (hb : SameBut b0 b) (hm : Turnable a0 b0) :
    let t := (j.preStep a0 b0).applyImpulse a b dt
    |t.2.2.jAcc| < j.maxForce * dt → t.1.w - t.2.1.w = j.rate := by
  intro t hlim
  have ht : t = (j.preStep a0 b0).applyImpulse a b dt := rfl
  simp only [SimpleMotor.applyImpulse, SimpleMotor.preStep] at ht
  have hnon := abs_nonneg (t.2.2.jAcc)
  rw [ht] at hlim hnon ⊢
  simp only at hlim ⊢
  have hi := ne_of_gt hm.2.2
  rw [clamp_inside _ _ _ (by simp only at hnon; linarith) (abs_lt.1 hlim).1 (abs_lt.1 hlim).2]
  have := spin_rate a b (j.jAcc + -(b.w - a.w + j.rate) * (1 / (a0.iInv + b0.iInv)) - j.jAcc)
  rw [ha.iInv, hb.iInv] at this
  have e : (j.jAcc + -(b.w - a.w + j.rate) * (1 / (a0.iInv + b0.iInv)) - j.jAcc) * (a0.iInv + b0.iInv)
      = -(b.w - a.w + j.rate) := by field_simp; ring
  rw [e] at this
  linear_combination -this

/-- **C39**, gear: within the force limit `ratio` times the rate of `b` exceeds the rate of `a` by the correcting
rate. -/
theorem C39_gear (M : Mth K) (dt : K) (j : GearJoint K) (a0 b0 a b : Body K)
    (ha : SameBut a0 a) (hb : SameBut b0 b) (hm : Turnable a0 b0) (hr : j.ratio ≠ 0) (hr' : j.ratioInv = 1 / j.ratio) :
    let t := (j.preStep M a0 b0 dt).applyImpulse a b dt
    |t.2.2.jAcc| < j.maxForce * dt →
    t.2.1.w * j.ratio - t.1.w = correction M j.toJointCfg dt (a0.angle + j.phase - b0.angle * j.ratio) := by
  intro t hlim
  have ht : t = (j.preStep M a0 b0 dt).applyImpulse a b dt := rfl
  simp only [GearJoint.applyImpulse, GearJoint.preStep] at ht
  have hnon := abs_nonneg (t.2.2.jAcc)
  rw [ht] at hlim hnon ⊢
  simp only at hlim ⊢
  have hden : a0.iInv * j.ratioInv + j.ratio * b0.iInv ≠ 0 := by
    rw [hr']
    intro e
    have e2 : a0.iInv + j.ratio ^ 2 * b0.iInv = 0 := by
      have : (a0.iInv * (1 / j.ratio) + j.ratio * b0.iInv) * j.ratio = a0.iInv + j.ratio ^ 2 * b0.iInv := by
        field_simp
      rw [← this, e, zero_mul]
    obtain ⟨h1, h2, h3⟩ := hm
    have hr2 : 0 < j.ratio ^ 2 := by positivity
    have h4 : 0 ≤ j.ratio ^ 2 * b0.iInv := by positivity
    have h5 : j.ratio ^ 2 * b0.iInv = 0 := by linarith
    have h6 : b0.iInv = 0 := by
      rcases mul_eq_zero.1 h5 with h | h
      · exact absurd h (ne_of_gt hr2)
      · exact h
    rw [h6] at h3 e2
    linarith
  rw [clamp_inside _ _ _ (by simp only at hnon; linarith) (abs_lt.1 hlim).1 (abs_lt.1 hlim).2]
  have hcorr : clamp (-biasCoef M j.errorBias dt * (b0.angle * j.ratio - a0.angle - j.phase) / dt) (-j.maxBias) j.maxBias
      = correction M j.toJointCfg dt (a0.angle + j.phase - b0.angle * j.ratio) := by
    simp only [correction, biasCoef]; congr 1; ring
  rw [hcorr]
  generalize correction M j.toJointCfg dt (a0.angle + j.phase - b0.angle * j.ratio) = target
  simp only [spin, ha.iInv, hb.iInv]
  field_simp
  ring

/-- **C39**, rotary limit joint beyond a limit: within the force limit, and while it has to act, the relative rate
becomes the one correcting the angle. -/
theorem C39_rotaryLimit (M : Mth K) (dt : K) (j : RotaryLimitJoint K) (a0 b0 a b : Body K)
    (ha : SameBut a0 a) (hb : SameBut b0 b) (hm : Turnable a0 b0) (hmb : 0 ≤ j.maxBias) (hf : 0 ≤ j.maxForce * dt)
    (err : K) (herr : (b0.angle - a0.angle > j.max ∧ err = j.max - (b0.angle - a0.angle)) ∨
      (b0.angle - a0.angle ≤ j.max ∧ b0.angle - a0.angle < j.min ∧ err = j.min - (b0.angle - a0.angle)))
    (hact : correction M j.toJointCfg dt err ≠ 0) :
    let t := (j.preStep M a0 b0 dt).applyImpulse a b dt
    0 < |t.2.2.jAcc| → |t.2.2.jAcc| < j.maxForce * dt →
    t.2.1.w - t.1.w = correction M j.toJointCfg dt err := by
  intro t hne hlim
  have hp : (if b0.angle - a0.angle > j.max then j.max - (b0.angle - a0.angle)
      else if b0.angle - a0.angle < j.min then j.min - (b0.angle - a0.angle) else 0) = err := by
    rcases herr with ⟨h1, h2⟩ | ⟨h1, h2, h3⟩
    · rw [if_pos h1, h2]
    · rw [if_neg (not_lt.2 h1), if_pos h2, h3]
  have hbias : clamp (-biasCoef M j.errorBias dt * err / dt) (-j.maxBias) j.maxBias = -correction M j.toJointCfg dt err := by
    rw [correction, ← clamp_neg _ _ hmb]; congr 1; simp only [biasCoef]; ring
  have ht : t = (j.preStep M a0 b0 dt).applyImpulse a b dt := rfl
  simp only [RotaryLimitJoint.applyImpulse, RotaryLimitJoint.preStep, hp, hbias] at ht
  rw [if_neg (neg_ne_zero.2 hact)] at ht
  have hbz : -correction M j.toJointCfg dt err ≠ 0 := neg_ne_zero.2 hact
  rw [if_neg hbz] at ht
  rw [ht] at hne hlim ⊢
  simp only at hne hlim ⊢
  have hi := ne_of_gt hm.2.2
  have hx : (if -correction M j.toJointCfg dt err < 0 then
        Cm.clamp (j.jAcc + -(-correction M j.toJointCfg dt err + (b.w - a.w)) * (1 / (a0.iInv + b0.iInv))) 0 (j.maxForce * dt)
      else Cm.clamp (j.jAcc + -(-correction M j.toJointCfg dt err + (b.w - a.w)) * (1 / (a0.iInv + b0.iInv)))
        (-(j.maxForce * dt)) 0)
      = j.jAcc + -(-correction M j.toJointCfg dt err + (b.w - a.w)) * (1 / (a0.iInv + b0.iInv)) := by
    split
    · rename_i hs
      rw [if_pos hs] at hne hlim
      have hmem := clamp_mem (j.jAcc + -(-correction M j.toJointCfg dt err + (b.w - a.w)) * (1 / (a0.iInv + b0.iInv))) 0 (j.maxForce * dt) hf
      exact clamp_inside _ _ _ hf (lt_of_le_of_ne hmem.1 (fun e => by rw [← e] at hne; simp at hne)) (abs_lt.1 hlim).2
    · rename_i hs
      rw [if_neg hs] at hne hlim
      have hmem := clamp_mem (j.jAcc + -(-correction M j.toJointCfg dt err + (b.w - a.w)) * (1 / (a0.iInv + b0.iInv))) (-(j.maxForce * dt)) 0 (by linarith)
      exact clamp_inside _ _ _ (by linarith) (abs_lt.1 hlim).1 (lt_of_le_of_ne hmem.2 (fun e => by rw [e] at hne; simp at hne))
  rw [hx, spin_rate, ha.iInv, hb.iInv]
  field_simp
  ring

/-- **C39**, ratchet turned back beyond its last notch: while it has to act and within the limit, the relative rate
becomes the one correcting the angle. -/
theorem C39_ratchet (M : Mth K) (dt : K) (j : RatchetJoint K) (a0 b0 a b : Body K)
    (ha : SameBut a0 a) (hb : SameBut b0 b) (hm : Turnable a0 b0) (hmb : 0 ≤ j.maxBias) (hf : 0 ≤ j.maxForce * dt)
    (hback : 0 < (j.angle - (b0.angle - a0.angle)) * j.ratchet)
    (hact : correction M j.toJointCfg dt (j.angle - (b0.angle - a0.angle)) ≠ 0) :
    let t := (j.preStep M a0 b0 dt).applyImpulse a b dt
    0 < |t.2.2.jAcc| → |t.2.2.jAcc| < j.maxForce * dt →
    t.2.1.w - t.1.w = correction M j.toJointCfg dt (j.angle - (b0.angle - a0.angle)) := by
  intro t hne hlim
  have hr : j.ratchet ≠ 0 := by intro e; rw [e, mul_zero] at hback; exact lt_irrefl _ hback
  have hbias : clamp (-biasCoef M j.errorBias dt * (j.angle - (b0.angle - a0.angle)) / dt) (-j.maxBias) j.maxBias
      = -correction M j.toJointCfg dt (j.angle - (b0.angle - a0.angle)) := by
    rw [correction, ← clamp_neg _ _ hmb]; congr 1; simp only [biasCoef]; ring
  have ht : t = (j.preStep M a0 b0 dt).applyImpulse a b dt := rfl
  have hbz : -correction M j.toJointCfg dt (j.angle - (b0.angle - a0.angle)) ≠ 0 := neg_ne_zero.2 hact
  have hpre : j.preStep M a0 b0 dt = { j with
      iSum := 1 / (a0.iInv + b0.iInv)
      bias := -correction M j.toJointCfg dt (j.angle - (b0.angle - a0.angle)) } := by
    simp only [RatchetJoint.preStep]
    rw [if_pos hback]
    simp only [hbias, if_neg hbz]
  rw [hpre, RatchetJoint.applyImpulse, if_neg hbz] at ht
  rw [ht] at hne hlim ⊢
  simp only [fabs_eq] at hne hlim ⊢
  have hi := ne_of_gt hm.2.2
  have hra : 0 < |j.ratchet| := abs_pos.2 hr
  generalize correction M j.toJointCfg dt (j.angle - (b0.angle - a0.angle)) = target at *
  have hhi : 0 ≤ j.maxForce * dt * |j.ratchet| := mul_nonneg hf (le_of_lt hra)
  have hmem := clamp_mem ((j.jAcc + -(-target + (b.w - a.w)) * (1 / (a0.iInv + b0.iInv))) * j.ratchet) 0
    (j.maxForce * dt * |j.ratchet|) hhi
  rw [abs_div, lt_div_iff₀ hra, zero_mul] at hne
  rw [abs_div, div_lt_iff₀ hra] at hlim
  have hin := clamp_inside ((j.jAcc + -(-target + (b.w - a.w)) * (1 / (a0.iInv + b0.iInv))) * j.ratchet) 0
    (j.maxForce * dt * |j.ratchet|) hhi (lt_of_le_of_ne hmem.1 (fun e => by rw [← e] at hne; simp at hne)) (abs_lt.1 hlim).2
  rw [hin, spin_rate, ha.iInv, hb.iInv]
  field_simp
  ring

/-! ### The hypotheses are met -/

/-- Two unit bodies a unit apart, the second moving away and turning. -/
noncomputable def exRA : Body ℝ :=
  { (Body.blank : Body ℝ) with m := 1, mInv := 1, i := 1, iInv := 1, tr := ⟨1, 0, 0, 1, 0, 0⟩ }
noncomputable def exRB : Body ℝ := { exRA with p := ⟨1, 0⟩, v := ⟨3, 0⟩, w := 2, angle := 5 }

/-- Evaluates the model on such bodies. -/
macro "eval_model" : tactic => `(tactic| norm_num [Movable, Turnable, fabs_eq, exRA, exRB, gap, correction, V2.zero, V2.add, V2.sub,
  anchorOffset, Transform.applyVector, Transform.apply, Body.blank, V2.mag, V2.lengthSq, V2.dot, realMth, V2.scale, V2.neg,
  V2.unit, V2.project, V2.clampMag,
  normalRelativeVelocity, relativeVelocity, V2.perp, kScalar, kScalarBody, V2.cross, biasCoef, Cm.clamp, applyImpulses,
  kTensor, Mat2x2.transform, spin, PinJoint.preStep, PinJoint.applyImpulse, SlideJoint.preStep, SlideJoint.applyImpulse,
  PivotJoint.preStep, PivotJoint.applyImpulse, SimpleMotor.preStep, SimpleMotor.applyImpulse, GearJoint.preStep,
  GearJoint.applyImpulse, RotaryLimitJoint.preStep, RotaryLimitJoint.applyImpulse, RatchetJoint.preStep,
  RatchetJoint.applyImpulse, GrooveJoint.preStep, GrooveJoint.applyImpulse, GrooveJoint.grooveConstrain])

noncomputable def exPin : PinJoint ℝ :=
  { maxForce := 100, errorBias := 1/2, maxBias := 10, anchorA := ⟨0, 0⟩, anchorB := ⟨0, 0⟩, dist := 2,
    r1 := ⟨0, 0⟩, r2 := ⟨0, 0⟩, n := ⟨0, 0⟩, nMass := 0, jnAcc := 0, bias := 0 }
noncomputable def exSl (lo hi : ℝ) : SlideJoint ℝ :=
  { maxForce := 100, errorBias := 1/2, maxBias := 10, anchorA := ⟨0, 0⟩, anchorB := ⟨0, 0⟩, min := lo, max := hi,
    r1 := ⟨0, 0⟩, r2 := ⟨0, 0⟩, n := ⟨0, 0⟩, nMass := 0, jnAcc := 0, bias := 0 }
noncomputable def exPivot : PivotJoint ℝ :=
  { maxForce := 100, errorBias := 1/2, maxBias := 10, anchorA := ⟨0, 1⟩, anchorB := ⟨0, 0⟩,
    r1 := ⟨0, 0⟩, r2 := ⟨0, 0⟩, k := ⟨0, 0, 0, 0⟩, jAcc := ⟨0, 0⟩, bias := ⟨0, 0⟩ }
noncomputable def exGroove : GrooveJoint ℝ :=
  { maxForce := 100, errorBias := 1/2, maxBias := 10, grooveN := ⟨0, 1⟩, grooveA := ⟨-2, 0⟩, grooveB := ⟨0, 0⟩, anchorB := ⟨0, 0⟩,
    grooveTn := ⟨0, 0⟩, clamp := 0,
    r1 := ⟨0, 0⟩, r2 := ⟨0, 0⟩, k := ⟨0, 0, 0, 0⟩, jAcc := ⟨0, 0⟩, bias := ⟨0, 0⟩ }
noncomputable def exGear : GearJoint ℝ :=
  { maxForce := 100, errorBias := 1/2, maxBias := 10, phase := 0, ratio := 2, ratioInv := 1/2, iSum := 0, bias := 0, jAcc := 0 }
noncomputable def exLimit : RotaryLimitJoint ℝ :=
  { maxForce := 100, errorBias := 1/2, maxBias := 10, min := 0, max := 1, iSum := 0, bias := 0, jAcc := 0 }
noncomputable def exRatchet : RatchetJoint ℝ :=
  { maxForce := 100, errorBias := 1/2, maxBias := 10, angle := 1, phase := 0, ratchet := -1, iSum := 0, bias := 0, jAcc := 0 }

example : realMth.Lawful ∧ Movable exRA exRB ∧ gap exRA exRB exPin.anchorA exPin.anchorB ≠ V2.zero ∧
    |((exPin.preStep realMth 1000 exRA exRB 1).applyImpulse exRA exRB 1).2.2.jnAcc| < exPin.maxForce * 1 ∧
    ((exPin.preStep realMth 1000 exRA exRB 1).applyImpulse exRA exRB 1).2.1.v.x = 7/4 := by
  refine ⟨realMth_lawful, ?_, ?_, ?_, ?_⟩ <;> (try unfold exPin) <;> eval_model

example : 0 ≤ (exSl 0 (1/2)).max ∧ (exSl 0 (1/2)).max < (gap exRA exRB (exSl 0 (1/2)).anchorA (exSl 0 (1/2)).anchorB).mag realMth ∧
    -((exSl 0 (1/2)).maxForce * 1) < (((exSl 0 (1/2)).preStep realMth exRA exRB 1).applyImpulse exRA exRB 1).2.2.jnAcc ∧
    (((exSl 0 (1/2)).preStep realMth exRA exRB 1).applyImpulse exRA exRB 1).2.2.jnAcc < 0 := by
  refine ⟨?_, ?_, ?_, ?_⟩ <;> (try unfold exSl) <;> eval_model

example : (exSl 9 9).min ≤ (exSl 9 9).max ∧
    (gap exRA exRB (exSl 9 9).anchorA (exSl 9 9).anchorB).mag realMth < (exSl 9 9).min ∧
    -((exSl 9 9).maxForce * 1) < (((exSl 9 9).preStep realMth exRA exRB 1).applyImpulse exRA exRB 1).2.2.jnAcc ∧
    (((exSl 9 9).preStep realMth exRA exRB 1).applyImpulse exRA exRB 1).2.2.jnAcc < 0 := by
  refine ⟨?_, ?_, ?_, ?_⟩ <;> (try unfold exSl) <;> eval_model

example : ((exPivot.preStep realMth exRA exRB 1).applyImpulse realMth exRA exRB 1).2.2.jAcc.lengthSq
      < (exPivot.maxForce * 1) * (exPivot.maxForce * 1) ∧
    0 < ((exPivot.preStep realMth exRA exRB 1).applyImpulse realMth exRA exRB 1).2.2.jAcc.lengthSq := by
  refine ⟨?_, ?_⟩ <;> (try unfold exPivot) <;> eval_model

example :
    let p := exGroove.preStep realMth exRA exRB 1
    0 < p.clamp * (p.jAcc.add (p.k.transform (p.bias.sub (relativeVelocity exRA exRB p.r1 p.r2)))).cross p.grooveTn ∧
    (p.applyImpulse realMth exRA exRB 1).2.2.jAcc.lengthSq < (exGroove.maxForce * 1) * (exGroove.maxForce * 1) ∧
    0 < (p.applyImpulse realMth exRA exRB 1).2.2.jAcc.lengthSq := by
  refine ⟨?_, ?_, ?_⟩ <;> (try unfold exGroove) <;> eval_model

example : Turnable exRA exRB ∧
    |((⟨⟨10, 1, 1⟩, 3, 0, 0⟩ : SimpleMotor ℝ).preStep exRA exRB |>.applyImpulse exRA exRB 1).2.2.jAcc| < 10 * 1 := by
  refine ⟨?_, ?_⟩ <;> eval_model

example : exGear.ratio ≠ 0 ∧ exGear.ratioInv = 1 / exGear.ratio ∧
    |((exGear.preStep realMth exRA exRB 1).applyImpulse exRA exRB 1).2.2.jAcc| < exGear.maxForce * 1 := by
  refine ⟨?_, ?_, ?_⟩ <;> (try unfold exGear) <;> eval_model

example : exRB.angle - exRA.angle > exLimit.max ∧
    correction realMth exLimit.toJointCfg 1 (exLimit.max - (exRB.angle - exRA.angle)) ≠ 0 ∧
    0 < |((exLimit.preStep realMth exRA exRB 1).applyImpulse exRA exRB 1).2.2.jAcc| ∧
    |((exLimit.preStep realMth exRA exRB 1).applyImpulse exRA exRB 1).2.2.jAcc| < exLimit.maxForce * 1 := by
  refine ⟨?_, ?_, ?_, ?_⟩ <;> (try unfold exLimit) <;> eval_model

example : 0 < (exRatchet.angle - (exRB.angle - exRA.angle)) * exRatchet.ratchet ∧
    correction realMth exRatchet.toJointCfg 1 (exRatchet.angle - (exRB.angle - exRA.angle)) ≠ 0 ∧
    0 < |((exRatchet.preStep realMth exRA exRB 1).applyImpulse exRA exRB 1).2.2.jAcc| ∧
    |((exRatchet.preStep realMth exRA exRB 1).applyImpulse exRA exRB 1).2.2.jAcc| < exRatchet.maxForce * 1 := by
  refine ⟨?_, ?_, ?_, ?_⟩ <;> (try unfold exRatchet) <;> eval_model

end Cm
