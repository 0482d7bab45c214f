import Verif.Props.JointMomentum
import Mathlib.Tactic.LinearCombination
/-! # C90: which body of a pair is called the first does not matter -/
set_option linter.unusedSectionVars false
set_option linter.unusedSimpArgs false
set_option linter.unusedVariables false

namespace Cm
open Spec
variable {K : Type} [Field K] [LinearOrder K] [IsStrictOrderedRing K]

namespace Spec
/-- The same contact seen from the other body. -/
def flipContact (c : Contact K) : Contact K := { c with r1 := c.r2, r2 := c.r1 }

/-- The same collision with the two bodies exchanged: the normal and the surface velocity point the other way. -/
def flipArb (arb : Arbiter K) : Arbiter K :=
  { arb with normal := arb.normal.neg, surfaceVr := arb.surfaceVr.neg, contacts := arb.contacts.map flipContact, swapped := !arb.swapped }

/-- The same joint with the two bodies exchanged: anchors change places, directions, angles and rates change sign. -/
def flipJoint : Joint K → Joint K
  | .pin j => .pin { j with anchorA := j.anchorB, anchorB := j.anchorA, r1 := j.r2, r2 := j.r1, n := j.n.neg }
  | .slide j => .slide { j with anchorA := j.anchorB, anchorB := j.anchorA, r1 := j.r2, r2 := j.r1, n := j.n.neg }
  | .pivot j => .pivot { j with anchorA := j.anchorB, anchorB := j.anchorA, r1 := j.r2, r2 := j.r1, jAcc := j.jAcc.neg, bias := j.bias.neg }
  | .groove j => .groove j
  | .gear j => .gear { j with phase := -j.phase, bias := -j.bias, jAcc := -j.jAcc }
  | .ratchet j => .ratchet { j with angle := -j.angle, phase := -j.phase, ratchet := -j.ratchet, bias := -j.bias, jAcc := -j.jAcc }
  | .rotaryLimit j => .rotaryLimit { j with min := -j.max, max := -j.min, bias := -j.bias, jAcc := -j.jAcc }
  | .motor j => .motor { j with rate := -j.rate, jAcc := -j.jAcc }
  | .spring s => .spring { s with anchorA := s.anchorB, anchorB := s.anchorA, r1 := s.r2, r2 := s.r1, n := s.n.neg }
  | .rotarySpring s => .rotarySpring { s with torqueFn := fun x => -s.torqueFn (-x), targetWrn := -s.targetWrn, jAcc := -s.jAcc }

/-- Joints that treat their bodies alike, with limits that make sense. A groove belongs to one of the bodies; a gear whose ratio is not one
has a fast and a slow side. -/
def EvenHanded : Joint K → Prop
  | .pin j => 0 ≤ j.maxForce ∧ 0 ≤ j.maxBias
  | .slide j => True
  | .pivot j => True
  | .groove _ => False
  | .gear j => j.ratio = 1 ∧ j.ratioInv = 1 ∧ 0 ≤ j.maxForce ∧ 0 ≤ j.maxBias
  | .ratchet j => 0 ≤ j.maxBias
  | .rotaryLimit j => 0 ≤ j.maxForce ∧ 0 ≤ j.maxBias ∧ j.min ≤ j.max
  | .motor j => 0 ≤ j.maxForce
  | .spring _ => True
  | .rotarySpring _ => True

/-- `l'` is `l`, or `l` with its two bodies exchanged. -/
inductive Turned {α : Type} (flip : α → α) (ok : α → Prop) : Link α → Link α → Prop
  | same (l : Link α) : Turned flip ok l l
  | turned (l : Link α) (hne : l.ia ≠ l.ib) (hok : ok l.it) : Turned flip ok l ⟨l.ib, l.ia, flip l.it⟩
end Spec

/-! ## Helpers -/

theorem applyImpulses_flip (a b : Body K) (r1 r2 j : V2 K) :
    applyImpulses b a r2 r1 j.neg = ((applyImpulses a b r1 r2 j).2, (applyImpulses a b r1 r2 j).1) := by
  simp [applyImpulses, V2.neg]

theorem applyBiasImpulses_flip (a b : Body K) (r1 r2 j : V2 K) :
    applyBiasImpulses b a r2 r1 j.neg = ((applyBiasImpulses a b r1 r2 j).2, (applyBiasImpulses a b r1 r2 j).1) := by
  simp [applyBiasImpulses, V2.neg]

theorem neg_scale (v : V2 K) (t : K) : v.neg.scale t = (v.scale t).neg := by simp [V2.neg, V2.scale]
theorem neg_add' (v w : V2 K) : v.neg.add w.neg = (v.add w).neg := by simp only [V2.neg, V2.add]; ext <;> ring
theorem neg_sub'' (v w : V2 K) : v.neg.sub w.neg = (v.sub w).neg := by simp only [V2.neg, V2.sub]; ext <;> ring
theorem sub_swap (v w : V2 K) : v.sub w = (w.sub v).neg := by simp only [V2.neg, V2.sub]; ext <;> ring
theorem neg_neg' (v : V2 K) : v.neg.neg = v := by simp [V2.neg]
theorem neg_dot_neg (v w : V2 K) : v.neg.dot w.neg = v.dot w := by simp [V2.neg, V2.dot]
theorem neg_lengthSq (v : V2 K) : v.neg.lengthSq = v.lengthSq := by simp [V2.neg, V2.dot, V2.lengthSq]
theorem neg_mag (M : Mth K) (v : V2 K) : v.neg.mag M = v.mag M := by simp [V2.mag, neg_lengthSq]
theorem neg_unit (M : Mth K) (v : V2 K) : v.neg.unit M = (v.unit M).neg := by simp [V2.unit, neg_mag, neg_scale]
theorem neg_perp (v : V2 K) : v.neg.perp = v.perp.neg := by simp [V2.perp, V2.neg]
theorem neg_rotate (v w : V2 K) : v.neg.rotate w = (v.rotate w).neg := by simp only [V2.rotate, V2.neg]; ext <;> ring
theorem neg_eq_zero' (v : V2 K) : v.neg = V2.zero ↔ v = V2.zero := by
  simp only [V2.neg, V2.zero, V2.ext_iff, neg_eq_zero]
theorem neg_zero' : (V2.zero : V2 K).neg = V2.zero := by simp [V2.neg, V2.zero]
theorem neg_clampMag (M : Mth K) (v : V2 K) (m : K) : v.neg.clampMag M m = (v.clampMag M m).neg := by
  simp only [V2.clampMag, neg_dot_neg, neg_unit, neg_scale]; split <;> rfl
theorem neg_transform (k : Mat2x2 K) (v : V2 K) : k.transform v.neg = (k.transform v).neg := by
  simp only [Mat2x2.transform, V2.neg]; ext <;> ring
theorem relativeVelocity_flip (a b : Body K) (r1 r2 : V2 K) : relativeVelocity b a r2 r1 = (relativeVelocity a b r1 r2).neg := by
  simp only [relativeVelocity, V2.neg, V2.sub, V2.add, V2.scale]; ext <;> ring
theorem kScalar_flip (a b : Body K) (r1 r2 n : V2 K) : kScalar b a r2 r1 n.neg = kScalar a b r1 r2 n := by
  simp only [kScalar, kScalarBody, V2.cross, V2.neg]; ring
theorem kTensor_flip (a b : Body K) (r1 r2 : V2 K) : kTensor b a r2 r1 = kTensor a b r1 r2 := by
  have e1 : b.mInv + a.mInv = a.mInv + b.mInv := add_comm _ _
  have h11 : b.mInv + a.mInv + r2.y * r2.y * b.iInv + r1.y * r1.y * a.iInv = a.mInv + b.mInv + r1.y * r1.y * a.iInv + r2.y * r2.y * b.iInv := by ring
  have h12 : 0 + -r2.x * r2.y * b.iInv + -r1.x * r1.y * a.iInv = 0 + -r1.x * r1.y * a.iInv + -r2.x * r2.y * b.iInv := by ring
  have h22 : b.mInv + a.mInv + r2.x * r2.x * b.iInv + r1.x * r1.x * a.iInv = a.mInv + b.mInv + r1.x * r1.x * a.iInv + r2.x * r2.x * b.iInv := by ring
  simp only [kTensor, h11, h12, h22]

theorem clamp_flip (f lo hi : K) (h : lo ≤ hi) : clamp (-f) (-hi) (-lo) = -clamp f lo hi := by
  rw [clamp_eq _ _ _ (by linarith), clamp_eq _ _ _ h]
  rcases le_total f lo with h1 | h1
  · rw [min_eq_left (le_trans h1 h), max_eq_left h1, min_eq_right (by linarith), max_eq_right (by linarith)]
  · rcases le_total f hi with h2 | h2
    · rw [min_eq_left h2, max_eq_right h1, min_eq_left (by linarith), max_eq_right (by linarith)]
    · rw [min_eq_right h2, max_eq_right h, min_eq_left (by linarith), max_eq_left (by linarith)]

theorem clamp_neg' (f m : K) (hm : 0 ≤ m) : clamp (-f) (-m) m = -clamp f (-m) m := by
  have := clamp_flip f (-m) m (by linarith)
  rwa [neg_neg] at this

theorem delta_flip (p q r s : V2 K) : (p.add r).sub (q.add s) = ((q.add s).sub (p.add r)).neg := sub_swap _ _

/-! ## Contacts -/

theorem preStepContact_flip (arb : Arbiter K) (a b : Body K) (dt slop bias : K) (c : Contact K) :
    (flipArb arb).preStepContact b a dt slop bias (flipContact c) = flipContact (arb.preStepContact a b dt slop bias c) := by
  have e : ((c.r1.sub c.r2).add (a.p.sub b.p)) = ((c.r2.sub c.r1).add (b.p.sub a.p)).neg := by
    simp only [V2.add, V2.sub, V2.neg]; ext <;> ring
  simp only [Arbiter.preStepContact, flipArb, flipContact, neg_perp, kScalar_flip, e, neg_dot_neg, normalRelativeVelocity, relativeVelocity_flip a b]

theorem preStep_flip (arb : Arbiter K) (a b : Body K) (dt slop bias : K) :
    (flipArb arb).preStep b a dt slop bias = flipArb (arb.preStep a b dt slop bias) := by
  have h : ∀ c, (flipArb arb).preStepContact b a dt slop bias (flipContact c) = flipContact (arb.preStepContact a b dt slop bias c) :=
    preStepContact_flip arb a b dt slop bias
  have : (flipArb arb).contacts.map ((flipArb arb).preStepContact b a dt slop bias)
      = (arb.contacts.map (arb.preStepContact a b dt slop bias)).map flipContact := by
    show (arb.contacts.map flipContact).map _ = _
    rw [List.map_map, List.map_map]
    exact List.map_congr_left fun c _ => h c
  simp only [Arbiter.preStep]
  rw [this]; rfl

theorem cachedLoop_flip (n : V2 K) (t : K) (cs : List (Contact K)) : ∀ a b : Body K,
    Arbiter.cachedLoop n.neg t (cs.map flipContact) b a = ((Arbiter.cachedLoop n t cs a b).2, (Arbiter.cachedLoop n t cs a b).1) := by
  induction cs with
  | nil => intro a b; rfl
  | cons c cs ih =>
    intro a b
    simp only [List.map_cons, Arbiter.cachedLoop, flipContact, neg_rotate, neg_scale, applyImpulses_flip]
    exact ih _ _

theorem contactStep_flip (n sv : V2 K) (u : K) (a b : Body K) (c : Contact K) :
    Arbiter.contactStep n.neg sv.neg u b a (flipContact c) =
      let t := Arbiter.contactStep n sv u a b c
      (t.2.1, t.1, flipContact t.2.2) := by
  simp only [Arbiter.contactStep, flipContact, relativeVelocity_flip a b, neg_add', neg_perp, neg_dot_neg, neg_scale, neg_rotate,
    applyBiasImpulses_flip, applyImpulses_flip]
  have e : (a.vBias.add (c.r1.perp.scale a.wBias)).sub (b.vBias.add (c.r2.perp.scale b.wBias))
      = ((b.vBias.add (c.r2.perp.scale b.wBias)).sub (a.vBias.add (c.r1.perp.scale a.wBias))).neg := sub_swap _ _
  simp only [e, neg_dot_neg]

theorem impulseLoop_flip (n sv : V2 K) (u : K) (cs : List (Contact K)) : ∀ a b : Body K,
    Arbiter.impulseLoop n.neg sv.neg u (cs.map flipContact) b a =
      let t := Arbiter.impulseLoop n sv u cs a b
      (t.2.1, t.1, t.2.2.map flipContact) := by
  induction cs with
  | nil => intro a b; rfl
  | cons c cs ih =>
    intro a b
    simp only [List.map_cons, Arbiter.impulseLoop, contactStep_flip, ih]

theorem arb_applyImpulse_flip (arb : Arbiter K) (a b : Body K) :
    (flipArb arb).applyImpulse b a = let t := arb.applyImpulse a b; (t.2.1, t.1, flipArb t.2.2) := by
  simp only [Arbiter.applyImpulse, flipArb, impulseLoop_flip]

theorem arb_cached_flip (arb : Arbiter K) (a b : Body K) (t : K) :
    (flipArb arb).applyCachedImpulse b a t = ((arb.applyCachedImpulse a b t).2, (arb.applyCachedImpulse a b t).1) := by
  simp only [Arbiter.applyCachedImpulse, flipArb, cachedLoop_flip]
  split <;> rfl

/-! ## Joints -/

theorem spin_flip (a b : Body K) (j : K) : spin b a (-j) 1 = ((spin a b j 1).2, (spin a b j 1).1) := by
  simp only [spin]
  refine Prod.ext ?_ ?_ <;> simp only [Body.mk.injEq, true_and, and_true] <;> ring

theorem joint_preStep_flip (M : Mth K) (inf dt : K) (jt : Joint K) (h : EvenHanded jt) (a b : Body K) :
    (flipJoint jt).preStep M inf b a dt = let t := jt.preStep M inf a b dt; (t.2.1, t.1, flipJoint t.2.2) := by
  cases jt with
  | pin j =>
    have e : a.p.add ((anchorOffset a j.anchorA).sub (b.p.add (anchorOffset b j.anchorB)))
        = (b.p.add ((anchorOffset b j.anchorB).sub (a.p.add (anchorOffset a j.anchorA)))).neg := by
      simp only [V2.add, V2.sub, V2.neg]; ext <;> ring
    simp only [Joint.preStep, flipJoint, PinJoint.preStep, e, neg_mag, neg_scale]
    split <;> simp only [kScalar_flip]
  | slide j =>
    have e := delta_flip a.p b.p (anchorOffset a j.anchorA) (anchorOffset b j.anchorB)
    simp only [Joint.preStep, flipJoint, SlideJoint.preStep, e, neg_mag, neg_unit]
    split_ifs
    · simp only [kScalar_flip]
    · simp only [kScalar_flip]
    · have e0 : (V2.zero : V2 K).neg = V2.zero := neg_zero'
      have := kScalar_flip a b (anchorOffset a j.anchorA) (anchorOffset b j.anchorB) V2.zero
      rw [e0] at this
      simp only [this, e0]
  | pivot j =>
    have e := delta_flip a.p b.p (anchorOffset a j.anchorA) (anchorOffset b j.anchorB)
    simp only [Joint.preStep, flipJoint, PivotJoint.preStep, e, neg_scale, neg_clampMag, kTensor_flip a b]
  | groove j => exact absurd h id
  | gear j =>
    obtain ⟨h1, h2, h3, h4⟩ := h
    simp only [Joint.preStep, flipJoint, GearJoint.preStep, h1, h2]
    have e : -(biasCoef M j.errorBias dt) * (a.angle * 1 - b.angle - -j.phase) / dt
        = -(-(biasCoef M j.errorBias dt) * (b.angle * 1 - a.angle - j.phase) / dt) := by ring
    rw [e, clamp_neg' _ _ h4, add_comm (b.iInv * 1), mul_comm b.iInv, mul_comm 1 a.iInv]
  | ratchet j =>
    have h4 : 0 ≤ j.maxBias := h
    simp only [Joint.preStep, flipJoint, RatchetJoint.preStep]
    have e1 : (-j.angle - (a.angle - b.angle)) * -j.ratchet = (j.angle - (b.angle - a.angle)) * j.ratchet := by ring
    have e2 : (a.angle - b.angle - -j.phase) / -j.ratchet = (b.angle - a.angle - j.phase) / j.ratchet := by
      rw [div_neg, ← neg_div]; congr 1; ring
    rw [e1, e2, add_comm b.iInv]
    have e3 : ∀ x : K, clamp (-(biasCoef M j.errorBias dt) * -x / dt) (-j.maxBias) j.maxBias
        = -clamp (-(biasCoef M j.errorBias dt) * x / dt) (-j.maxBias) j.maxBias := by
      intro x
      rw [← clamp_neg' _ _ h4]; congr 1; ring
    have e5 : ∀ x : K, (if -x = 0 then 0 else -j.jAcc) = -(if x = 0 then 0 else j.jAcc) := by
      intro x; by_cases hx : x = 0
      · simp [hx]
      · simp [hx]
    by_cases c1 : (j.angle - (b.angle - a.angle)) * j.ratchet > 0
    · have e4 : -j.angle - (a.angle - b.angle) = -(j.angle - (b.angle - a.angle)) := by ring
      simp only [if_pos c1, e4, e3, e5]
    · have e6 := e3 0
      rw [neg_zero] at e6
      have e7 : ∀ x : K, x * -j.ratchet + -j.phase = -(x * j.ratchet + j.phase) := by intro x; ring
      have e8 : clamp (-(biasCoef M j.errorBias dt) * 0 / dt) (-j.maxBias) j.maxBias = 0 := by linarith
      simp only [if_neg c1, e7, e8, neg_zero, if_true]
  | rotaryLimit j =>
    obtain ⟨h3, h4, h5⟩ := h
    simp only [Joint.preStep, flipJoint, RotaryLimitJoint.preStep]
    have e3 : ∀ x : K, clamp (-(biasCoef M j.errorBias dt) * -x / dt) (-j.maxBias) j.maxBias
        = -clamp (-(biasCoef M j.errorBias dt) * x / dt) (-j.maxBias) j.maxBias := by
      intro x
      rw [← clamp_neg' _ _ h4]; congr 1; ring
    have e5 : ∀ x : K, (if -x = 0 then 0 else -j.jAcc) = -(if x = 0 then 0 else j.jAcc) := by
      intro x; by_cases hx : x = 0
      · simp [hx]
      · simp [hx]
    have e4 : (if a.angle - b.angle > -j.min then -j.min - (a.angle - b.angle) else if a.angle - b.angle < -j.max then -j.max - (a.angle - b.angle) else 0)
        = -(if b.angle - a.angle > j.max then j.max - (b.angle - a.angle) else if b.angle - a.angle < j.min then j.min - (b.angle - a.angle) else 0) := by
      split_ifs <;> first | ring1 | (exfalso; linarith)
    rw [e4, add_comm b.iInv]
    simp only [e3, e5]
  | motor j =>
    simp only [Joint.preStep, flipJoint, SimpleMotor.preStep, add_comm b.iInv]
  | spring j =>
    have e := delta_flip a.p b.p (anchorOffset a j.anchorA) (anchorOffset b j.anchorB)
    simp only [Joint.preStep, flipJoint, DampedSpring.preStep, e, neg_mag, neg_scale]
    split <;> simp only [kScalar_flip, neg_scale, applyImpulses_flip]
  | rotarySpring j =>
    have e : -(b.angle - a.angle) = a.angle - b.angle := by ring
    simp only [Joint.preStep, flipJoint, DampedRotarySpring.preStep, e, neg_mul, sub_neg_eq_add, neg_zero, add_comm b.iInv, ← sub_eq_add_neg]

theorem joint_cached_flip (jt : Joint K) (h : EvenHanded jt) (a b : Body K) (t : K) :
    (flipJoint jt).applyCached b a t = ((jt.applyCached a b t).2, (jt.applyCached a b t).1) := by
  cases jt with
  | pin j => simp only [Joint.applyCached, flipJoint, PinJoint.applyCached, neg_scale, applyImpulses_flip]
  | slide j => simp only [Joint.applyCached, flipJoint, SlideJoint.applyCached, neg_scale, applyImpulses_flip]
  | pivot j => simp only [Joint.applyCached, flipJoint, PivotJoint.applyCached, neg_scale, applyImpulses_flip]
  | groove j => exact absurd h id
  | gear j => simp only [Joint.applyCached, flipJoint, GearJoint.applyCached, h.2.1, neg_mul, spin_flip]
  | ratchet j => simp only [Joint.applyCached, flipJoint, RatchetJoint.applyCached, neg_mul, spin_flip]
  | rotaryLimit j => simp only [Joint.applyCached, flipJoint, RotaryLimitJoint.applyCached, neg_mul, spin_flip]
  | motor j => simp only [Joint.applyCached, flipJoint, SimpleMotor.applyCached, neg_mul, spin_flip]
  | spring j => rfl
  | rotarySpring j => rfl

theorem joint_applyImpulse_flip (M : Mth K) (dt : K) (hdt : 0 ≤ dt) (jt : Joint K) (h : EvenHanded jt) (a b : Body K) :
    (flipJoint jt).applyImpulse M b a dt = let t := jt.applyImpulse M a b dt; (t.2.1, t.1, flipJoint t.2.2) := by
  cases jt with
  | pin j =>
    simp only [Joint.applyImpulse, flipJoint, PinJoint.applyImpulse, normalRelativeVelocity, relativeVelocity_flip a b, neg_dot_neg, neg_scale, applyImpulses_flip]
  | slide j =>
    simp only [Joint.applyImpulse, flipJoint, SlideJoint.applyImpulse, relativeVelocity_flip a b, neg_dot_neg, neg_scale, applyImpulses_flip, neg_eq_zero']
    split <;> rfl
  | pivot j =>
    simp only [Joint.applyImpulse, flipJoint, PivotJoint.applyImpulse, relativeVelocity_flip a b, neg_sub'', neg_transform, neg_add', neg_clampMag, applyImpulses_flip]
  | groove j => exact absurd h id
  | gear j =>
    obtain ⟨h1, h2, h3, h4⟩ := h
    have e : -j.jAcc + (-j.bias - (a.w * 1 - b.w)) * j.iSum = -(j.jAcc + (j.bias - (b.w * 1 - a.w)) * j.iSum) := by ring
    have e2 : ∀ x : K, -x - -j.jAcc = -(x - j.jAcc) := by intro x; ring
    simp only [Joint.applyImpulse, flipJoint, GearJoint.applyImpulse, h1, h2, e, clamp_neg' _ _ (mul_nonneg h3 hdt), e2, spin_flip]
  | ratchet j =>
    have e : (-j.jAcc + -(-j.bias + (a.w - b.w)) * j.iSum) * -j.ratchet = (j.jAcc + -(j.bias + (b.w - a.w)) * j.iSum) * j.ratchet := by ring
    have e2 : ∀ x : K, x / -j.ratchet - -j.jAcc = -(x / j.ratchet - j.jAcc) := by intro x; rw [div_neg]; ring
    simp only [Joint.applyImpulse, flipJoint, RatchetJoint.applyImpulse, fabs_eq, neg_eq_zero, e, abs_neg, e2, spin_flip]
    split
    · rfl
    · simp only [div_neg]
  | rotaryLimit j =>
    obtain ⟨h3, h4, h5⟩ := h
    have e : -j.jAcc + -(-j.bias + (a.w - b.w)) * j.iSum = -(j.jAcc + -(j.bias + (b.w - a.w)) * j.iSum) := by ring
    have e2 : ∀ x : K, -x - -j.jAcc = -(x - j.jAcc) := by intro x; ring
    have hm := mul_nonneg h3 hdt
    have f1 : ∀ x : K, clamp (-x) (-(j.maxForce * dt)) 0 = -clamp x 0 (j.maxForce * dt) := by
      intro x; have := clamp_flip x 0 (j.maxForce * dt) hm; rwa [neg_zero] at this
    have f2 : ∀ x : K, clamp (-x) 0 (j.maxForce * dt) = -clamp x (-(j.maxForce * dt)) 0 := by
      intro x; have := clamp_flip x (-(j.maxForce * dt)) 0 (by linarith); rwa [neg_zero, neg_neg] at this
    simp only [Joint.applyImpulse, flipJoint, RotaryLimitJoint.applyImpulse, neg_eq_zero, e]
    by_cases c : j.bias = 0
    · simp only [if_pos c]
    · simp only [if_neg c]
      by_cases c2 : j.bias < 0
      · have c3 : ¬ -j.bias < 0 := by linarith
        simp only [if_pos c2, if_neg c3, f1, e2, spin_flip]
      · have c3 : -j.bias < 0 := by
          rcases lt_trichotomy j.bias 0 with q | q | q
          · exact absurd q c2
          · exact absurd q c
          · linarith
        simp only [if_neg c2, if_pos c3, f2, e2, spin_flip]
  | motor j =>
    have h3 : 0 ≤ j.maxForce := h
    have e : -j.jAcc + -(a.w - b.w + -j.rate) * j.iSum = -(j.jAcc + -(b.w - a.w + j.rate) * j.iSum) := by ring
    have e2 : ∀ x : K, -x - -j.jAcc = -(x - j.jAcc) := by intro x; ring
    simp only [Joint.applyImpulse, flipJoint, SimpleMotor.applyImpulse, e, clamp_neg' _ _ (mul_nonneg h3 hdt), e2, spin_flip]
  | spring j =>
    simp only [Joint.applyImpulse, flipJoint, DampedSpring.applyImpulse, normalRelativeVelocity, relativeVelocity_flip a b, neg_dot_neg, neg_scale, applyImpulses_flip]
  | rotarySpring j =>
    have e : (-j.targetWrn - (b.w - a.w)) * j.wCoef = -((j.targetWrn - (a.w - b.w)) * j.wCoef) := by ring
    simp only [Joint.applyImpulse, flipJoint, DampedRotarySpring.applyImpulse, e]
    refine Prod.ext ?_ (Prod.ext ?_ ?_)
    · simp only [Body.mk.injEq, true_and, and_true]; ring
    · simp only [Body.mk.injEq, true_and, and_true]; ring
    · simp only [Joint.rotarySpring.injEq, DampedRotarySpring.mk.injEq, true_and, and_true]
      exact ⟨by ring, by ring⟩

theorem even_preStep (M : Mth K) (inf dt : K) (jt : Joint K) (h : EvenHanded jt) (a b : Body K) : EvenHanded (jt.preStep M inf a b dt).2.2 := by
  cases jt <;> exact h

theorem even_applyImpulse (M : Mth K) (dt : K) (jt : Joint K) (h : EvenHanded jt) (a b : Body K) : EvenHanded (jt.applyImpulse M a b dt).2.2 := by
  cases jt with
  | slide j => trivial
  | ratchet j => simp only [Joint.applyImpulse, RatchetJoint.applyImpulse]; split <;> exact h
  | rotaryLimit j => simp only [Joint.applyImpulse, RotaryLimitJoint.applyImpulse]; split <;> exact h
  | _ => exact h

/-! ## The whole solver -/

theorem putPair_swap (bs : Nat → Body K) {i k : Nat} (h : i ≠ k) (a b : Body K) : putPair bs k i b a = putPair bs i k a b := by
  funext x
  simp only [putPair]
  split_ifs with h1 h2 h2 <;> first | rfl | (exact absurd (h2.symm.trans h1) h)

theorem linkLoop_turned {α : Type} {flip : α → α} {ok : α → Prop} (f : α → Body K → Body K → Body K × Body K × α)
    (hf : ∀ x a b, ok x → f (flip x) b a = ((f x a b).2.1, (f x a b).1, flip (f x a b).2.2))
    (hok : ∀ x a b, ok x → ok (f x a b).2.2) :
    ∀ ls ls' : List (Link α), List.Forall₂ (Turned flip ok) ls ls' → ∀ bs : Nat → Body K,
      (linkLoop f ls' bs).1 = (linkLoop f ls bs).1 ∧ List.Forall₂ (Turned flip ok) (linkLoop f ls bs).2 (linkLoop f ls' bs).2 := by
  intro ls ls' h
  induction h with
  | nil => intro bs; exact ⟨rfl, .nil⟩
  | @cons l l' ls ls' hl _ ih =>
    intro bs
    cases hl with
    | same =>
      obtain ⟨i1, i2⟩ := ih (putPair bs l.ia l.ib (f l.it (bs l.ia) (bs l.ib)).1 (f l.it (bs l.ia) (bs l.ib)).2.1)
      exact ⟨i1, .cons (.same _) i2⟩
    | turned hne hx =>
      obtain ⟨i1, i2⟩ := ih (putPair bs l.ia l.ib (f l.it (bs l.ia) (bs l.ib)).1 (f l.it (bs l.ia) (bs l.ib)).2.1)
      simp only [linkLoop, hf _ _ _ hx, putPair_swap bs hne]
      exact ⟨i1, .cons (.turned { l with it := (f l.it (bs l.ia) (bs l.ib)).2.2 } hne (hok _ _ _ hx)) i2⟩

/-- The second state is the first with the bodies of any of its links exchanged. -/
structure Spec.TurnedState (s s' : SolverState K) : Prop where
  bodies : s'.bodies = s.bodies
  arbs : List.Forall₂ (Turned flipArb fun _ => True) s.arbs s'.arbs
  joints : List.Forall₂ (Turned flipJoint EvenHanded) s.joints s'.joints

theorem turned_loops (fa : Arbiter K → Body K → Body K → Body K × Body K × Arbiter K) (fj : Joint K → Body K → Body K → Body K × Body K × Joint K)
    (ha : ∀ x a b, fa (flipArb x) b a = ((fa x a b).2.1, (fa x a b).1, flipArb (fa x a b).2.2))
    (hj : ∀ x a b, EvenHanded x → fj (flipJoint x) b a = ((fj x a b).2.1, (fj x a b).1, flipJoint (fj x a b).2.2))
    (he : ∀ x a b, EvenHanded x → EvenHanded (fj x a b).2.2) (s s' : SolverState K) (h : TurnedState s s') :
    TurnedState (⟨(linkLoop fj s.joints (linkLoop fa s.arbs s.bodies).1).1, (linkLoop fa s.arbs s.bodies).2,
        (linkLoop fj s.joints (linkLoop fa s.arbs s.bodies).1).2⟩ : SolverState K)
      ⟨(linkLoop fj s'.joints (linkLoop fa s'.arbs s'.bodies).1).1, (linkLoop fa s'.arbs s'.bodies).2,
        (linkLoop fj s'.joints (linkLoop fa s'.arbs s'.bodies).1).2⟩ := by
  obtain ⟨h1, h2, h3⟩ := h
  obtain ⟨a1, a2⟩ := linkLoop_turned fa (fun x a b _ => ha x a b) (fun _ _ _ _ => trivial) _ _ h2 s.bodies
  obtain ⟨j1, j2⟩ := linkLoop_turned fj hj he _ _ h3 (linkLoop fa s.arbs s.bodies).1
  rw [h1, a1]
  exact ⟨j1, a2, j2⟩

theorem turned_iterate (M : Mth K) (dt : K) (hdt : 0 ≤ dt) (s s' : SolverState K) (h : TurnedState s s') : TurnedState (s.iterate M dt) (s'.iterate M dt) :=
  turned_loops _ _ (fun x a b => arb_applyImpulse_flip x a b) (fun x a b hx => joint_applyImpulse_flip M dt hdt x hx a b)
    (fun x a b hx => even_applyImpulse M dt x hx a b) s s' h

/-- **C90** Exchange the two bodies of any of the collisions and of any of the joints that treat their bodies alike: a whole solve, that is preparation,
new velocities, warm start and any number of iterations, gives every body the same state, and the links are still the same ones turned. -/
theorem C90_solve (M : Mth K) (inf slop cbias damping : K) (g : V2 K) (dyn : List Nat) (prevDT dt : K) (hdt : 0 ≤ dt) (iterations : Nat)
    (s s' : SolverState K) (h : TurnedState s s') :
    TurnedState (s.solve M inf slop cbias damping g dyn prevDT dt iterations) (s'.solve M inf slop cbias damping g dyn prevDT dt iterations) := by
  have h1 : TurnedState (s.preStep M inf slop cbias dt) (s'.preStep M inf slop cbias dt) :=
    turned_loops _ _ (fun x a b => by rw [preStep_flip]) (fun x a b hx => joint_preStep_flip M inf dt x hx a b) (fun x a b hx => even_preStep M inf dt x hx a b) s s' h
  have h2 : TurnedState ((s.preStep M inf slop cbias dt).velocities M inf damping g dyn dt) ((s'.preStep M inf slop cbias dt).velocities M inf damping g dyn dt) := by
    obtain ⟨e, q, r⟩ := h1
    exact ⟨by simp only [SolverState.velocities, e], q, r⟩
  have h3 := turned_loops (fun arb a b => let t := arb.applyCachedImpulse a b (if prevDT ≠ 0 then dt / prevDT else 0); (t.1, t.2, arb))
    (fun jt a b => let t := jt.applyCached a b (if prevDT ≠ 0 then dt / prevDT else 0); (t.1, t.2, jt))
    (fun x a b => by simp only [arb_cached_flip]) (fun x a b hx => by simp only [joint_cached_flip x hx]) (fun x a b hx => hx) _ _ h2
  have : ∀ n (t t' : SolverState K), TurnedState t t' → TurnedState ((SolverState.iterate M dt)^[n] t) ((SolverState.iterate M dt)^[n] t') := by
    intro n
    induction n with
    | zero => intro t t' ht; exact ht
    | succ n ih => intro t t' ht; rw [Function.iterate_succ_apply, Function.iterate_succ_apply]; exact ih _ _ (turned_iterate M dt hdt t t' ht)
  exact this iterations _ _ h3

/-- **C90** What is reported does not depend on it either: the total impulse of a collision, and the impulse of each joint. -/
theorem C90_reported (M : Mth K) (arb : Arbiter K) (jt : Joint K) (h : ∀ s, jt ≠ .rotarySpring s) :
    (flipArb arb).totalImpulse = arb.totalImpulse ∧ (flipJoint jt).getImpulse M = jt.getImpulse M := by
  constructor
  · have hs : ∀ (l : List (Contact K)) (v : V2 K),
        (l.map flipContact).foldl (fun s con => s.add (arb.normal.neg.rotate ⟨con.jnAcc, con.jtAcc⟩)) v.neg
          = (l.foldl (fun s con => s.add (arb.normal.rotate ⟨con.jnAcc, con.jtAcc⟩)) v).neg := by
      intro l
      induction l with
      | nil => intro v; rfl
      | cons c l ih =>
        intro v
        rw [List.map_cons, List.foldl_cons, List.foldl_cons, ← ih]
        simp only [flipContact, neg_rotate, neg_add']
    have hc : (flipArb arb).count = arb.count := by
      simp only [Arbiter.count, flipArb]; split <;> simp
    have := hs (arb.contacts.take arb.count) V2.zero
    rw [neg_zero', List.map_take] at this
    simp only [Arbiter.totalImpulse, hc]
    simp only [flipArb]
    rw [this]
    by_cases hsw : arb.swapped = true
    · simp [hsw, neg_neg']
    · simp [hsw]
  · cases jt with
    | rotarySpring s => exact absurd rfl (h s)
    | pivot j => simp only [flipJoint, Joint.getImpulse, PivotJoint.getImpulse, neg_mag]
    | gear j => simp only [flipJoint, Joint.getImpulse, GearJoint.getImpulse, fabs_eq, abs_neg]
    | ratchet j => simp only [flipJoint, Joint.getImpulse, RatchetJoint.getImpulse, fabs_eq, abs_neg]
    | rotaryLimit j => simp only [flipJoint, Joint.getImpulse, RotaryLimitJoint.getImpulse, fabs_eq, abs_neg]
    | motor j => simp only [flipJoint, Joint.getImpulse, SimpleMotor.getImpulse, fabs_eq, abs_neg]
    | _ => rfl

/-! ## Examples -/

/-- `exSpace` with the bodies of its collision and of its joint exchanged. -/
def exSpaceTurned : SolverState ℚ :=
  { exSpace with
    arbs := exSpace.arbs.map fun l => ⟨l.ib, l.ia, flipArb l.it⟩
    joints := exSpace.joints.map fun l => ⟨l.ib, l.ia, flipJoint l.it⟩ }

example : TurnedState exSpace exSpaceTurned ∧ exSpaceTurned.arbs.map (·.it.normal) ≠ exSpace.arbs.map (·.it.normal) := by
  refine ⟨⟨rfl, ?_, ?_⟩, by decide +kernel⟩
  · exact .cons (.turned _ (by decide +kernel) trivial) .nil
  · exact .cons (.turned _ (by decide +kernel) (by simp only [exSpace, EvenHanded]; norm_num)) .nil

/-- The impulse a damped rotary spring reports does change its sign. -/
example : (flipJoint (.rotarySpring ⟨1, fun x => x, 0, 1, 1, 3⟩ : Joint ℚ)).getImpulse toyMth
    = -(Joint.rotarySpring ⟨1, fun x => x, 0, 1, 1, 3⟩ : Joint ℚ).getImpulse toyMth := by decide +kernel

end Cm
