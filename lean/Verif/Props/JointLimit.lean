import Verif.Props.JointTarget
/-! # C40, C68: limit joints and springs -/
set_option linter.unusedSectionVars false
set_option linter.unusedSimpArgs false
set_option linter.unusedVariables false
set_option linter.unnecessarySeqFocus false

namespace Cm
open Spec
variable {K : Type} [Field K] [LinearOrder K] [IsStrictOrderedRing K]

/-! ## C40: inside the limits -/

theorem applyImpulses_zero (a b : Body K) (r1 r2 j : V2 K) (h : j = V2.zero) : applyImpulses a b r1 r2 j = (a, b) := by
  subst h
  simp [applyImpulses, V2.zero]

theorem spin_zero (a b : Body K) (c : K) : spin a b 0 c = (a, b) := by simp [spin]

theorem clamp_zero (m : K) (hm : 0 ≤ m) : clamp (0 : K) (-m) m = 0 := by
  rw [clamp_eq _ _ _ (by linarith), min_eq_left hm, max_eq_right (by linarith)]

/-- A prepared joint does nothing: whatever the bodies' velocities have become, neither the warm start nor an
iteration changes them, and the reported impulse is zero. -/
def Spec.Idle (M : Mth K) (dt : K) (jt : Joint K) : Prop :=
  ∀ a b : Body K, (∀ t, jt.applyCached a b t = (a, b)) ∧ jt.applyImpulse M a b dt = (a, b, jt) ∧ jt.getImpulse M = 0

/-- **C40** A slide joint within its limits is idle. -/
theorem C40_slide_inside (M : Mth K) (inf dt : K) (j : SlideJoint K) (a0 b0 : Body K)
    (h1 : j.min ≤ (gap a0 b0 j.anchorA j.anchorB).mag M) (h2 : (gap a0 b0 j.anchorA j.anchorB).mag M ≤ j.max) :
    Idle M dt ((Joint.slide j).preStep M inf a0 b0 dt).2.2 := by
  intro a b
  have c1 : ¬ ((b0.p.add (anchorOffset b0 j.anchorB)).sub (a0.p.add (anchorOffset a0 j.anchorA))).mag M > j.max := not_lt.2 h2
  have c2 : ¬ ((b0.p.add (anchorOffset b0 j.anchorB)).sub (a0.p.add (anchorOffset a0 j.anchorA))).mag M < j.min := not_lt.2 h1
  have hn : (j.preStep M a0 b0 dt).n = V2.zero ∧ (j.preStep M a0 b0 dt).jnAcc = 0 := by
    simp only [SlideJoint.preStep, if_neg c1, if_neg c2, and_self]
  refine ⟨fun t => ?_, ?_, ?_⟩
  · simp only [Joint.preStep, Joint.applyCached, SlideJoint.applyCached]
    exact applyImpulses_zero _ _ _ _ _ (by rw [hn.1]; simp [V2.zero, V2.scale])
  · simp only [Joint.preStep, Joint.applyImpulse, SlideJoint.applyImpulse, hn.1, if_true]
  · simp only [Joint.preStep, Joint.getImpulse, SlideJoint.getImpulse, fabs_eq, hn.2, abs_zero]

/-- **C40** A rotary limit joint within its limits is idle. -/
theorem C40_rotaryLimit_inside (M : Mth K) (inf dt : K) (j : RotaryLimitJoint K) (a0 b0 : Body K) (hm : 0 ≤ j.maxBias)
    (h1 : j.min ≤ b0.angle - a0.angle) (h2 : b0.angle - a0.angle ≤ j.max) :
    Idle M dt ((Joint.rotaryLimit j).preStep M inf a0 b0 dt).2.2 := by
  intro a b
  have hn : (j.preStep M a0 b0 dt).bias = 0 ∧ (j.preStep M a0 b0 dt).jAcc = 0 := by
    simp only [RotaryLimitJoint.preStep, if_neg (not_lt.2 h2), if_neg (not_lt.2 h1), mul_zero, zero_div,
      clamp_zero _ hm, if_true, and_self]
  refine ⟨fun t => ?_, ?_, ?_⟩
  · simp only [Joint.preStep, Joint.applyCached, RotaryLimitJoint.applyCached, hn.2, zero_mul]
    exact spin_zero _ _ _
  · simp only [Joint.preStep, Joint.applyImpulse, RotaryLimitJoint.applyImpulse, hn.1, if_true]
  · simp only [Joint.preStep, Joint.getImpulse, RotaryLimitJoint.getImpulse, fabs_eq, hn.2, abs_zero]

/-- **C40** A ratchet that is not turned back beyond its last notch is idle, and its notch becomes the last one
passed: less than one click behind the present angle. -/
theorem C40_ratchet_inside {M : Mth K} (hM : M.Lawful) (inf dt : K) (j : RatchetJoint K) (a0 b0 : Body K)
    (hm : 0 ≤ j.maxBias) (hr : j.ratchet ≠ 0) (h : (j.angle - (b0.angle - a0.angle)) * j.ratchet ≤ 0) :
    Idle M dt ((Joint.ratchet j).preStep M inf a0 b0 dt).2.2 ∧
    0 ≤ (b0.angle - a0.angle - (j.preStep M a0 b0 dt).angle) / j.ratchet ∧
    (b0.angle - a0.angle - (j.preStep M a0 b0 dt).angle) / j.ratchet < 1 := by
  have hc : ¬ (j.angle - (b0.angle - a0.angle)) * j.ratchet > 0 := not_lt.2 h
  have hn : (j.preStep M a0 b0 dt).bias = 0 ∧ (j.preStep M a0 b0 dt).jAcc = 0 := by
    simp only [RatchetJoint.preStep, if_neg hc, mul_zero, zero_div, clamp_zero _ hm, if_true, and_self]
  have ha : (j.preStep M a0 b0 dt).angle
      = M.floor ((b0.angle - a0.angle - j.phase) / j.ratchet) * j.ratchet + j.phase := by
    simp only [RatchetJoint.preStep, if_neg hc]
  refine ⟨fun a b => ⟨fun t => ?_, ?_, ?_⟩, ?_⟩
  · simp only [Joint.preStep, Joint.applyCached, RatchetJoint.applyCached, hn.2, zero_mul]
    exact spin_zero _ _ _
  · simp only [Joint.preStep, Joint.applyImpulse, RatchetJoint.applyImpulse, hn.1, if_true]
  · simp only [Joint.preStep, Joint.getImpulse, RatchetJoint.getImpulse, fabs_eq, hn.2, abs_zero]
  · rw [ha]
    have e : (b0.angle - a0.angle - (M.floor ((b0.angle - a0.angle - j.phase) / j.ratchet) * j.ratchet + j.phase)) / j.ratchet
        = (b0.angle - a0.angle - j.phase) / j.ratchet - M.floor ((b0.angle - a0.angle - j.phase) / j.ratchet) := by
      field_simp; ring
    rw [e]
    have h1 := hM.floor_le ((b0.angle - a0.angle - j.phase) / j.ratchet)
    have h2 := hM.lt_floor ((b0.angle - a0.angle - j.phase) / j.ratchet)
    exact ⟨by linarith, by linarith⟩

/-! ## C40: outside -/

theorem slide_acc_nonpos (j : SlideJoint K) (a b : Body K) (dt : K) (hf : 0 ≤ j.maxForce * dt) (h : j.jnAcc ≤ 0) :
    (j.applyImpulse a b dt).2.2.jnAcc ≤ 0 ∧ (j.applyImpulse a b dt).2.2.n = j.n := by
  unfold SlideJoint.applyImpulse
  split
  · exact ⟨h, rfl⟩
  · exact ⟨(clamp_mem _ _ _ (by linarith [neg_mul j.maxForce dt])).2, rfl⟩

/-- The slide joint inside a `Joint` has an accumulated impulse that pulls against `n`. -/
def Spec.slideNonpos : Joint K → Prop
  | .slide j => j.jnAcc ≤ 0 ∧ 0 ≤ j.maxForce
  | _ => True

theorem slideNonpos_phase (M : Mth K) (inf dt : K) (hdt : 0 ≤ dt) (jt : Joint K) (ph : JointPhase K) (h : slideNonpos jt) :
    slideNonpos (runPhase M inf dt jt ph) := by
  cases jt <;> cases ph <;> try trivial
  · rename_i j a b
    obtain ⟨h1, h2⟩ := h
    refine ⟨?_, h2⟩
    simp only [SlideJoint.preStep]
    split_ifs <;> first | exact h1 | exact le_refl _
  · rename_i j a b
    obtain ⟨h1, h2⟩ := h
    refine ⟨(slide_acc_nonpos j a b dt (mul_nonneg h2 hdt) h1).1, ?_⟩
    simp only [SlideJoint.applyImpulse]
    split <;> exact h2

/-- **C40** Whatever steps and iterations a slide joint has been through since it was made, the accumulated impulse
on `b` is along the line of the anchors and is directed towards `a` when the joint is too long and away from `a`
when it is too short. `phases` is the history before this step, `bodies` the states met by the iterations of it. -/
theorem C40_slide_inward {M : Mth K} (hM : M.Lawful) (inf dt : K) (hdt : 0 ≤ dt) (j0 j : SlideJoint K) (hf : 0 ≤ j0.maxForce)
    (h0 : j0.jnAcc = 0) (phases : List (JointPhase K)) (hj : phases.foldl (runPhase M inf dt) (.slide j0) = .slide j)
    (a0 b0 : Body K) (bodies : Nat → Body K × Body K) (n : Nat) (p : SlideJoint K)
    (hp : iterateJoint M dt (.slide (j.preStep M a0 b0 dt)) bodies n = .slide p) (hmm : j.min ≤ j.max) :
    let g := gap a0 b0 j.anchorA j.anchorB
    (j.max < g.mag M → p.n.scale p.jnAcc = g.scale (p.jnAcc / g.mag M) ∧ p.jnAcc ≤ 0) ∧
    (g.mag M < j.min → p.n.scale p.jnAcc = g.scale (-p.jnAcc / g.mag M) ∧ 0 ≤ -p.jnAcc) := by
  intro g
  have hstart : slideNonpos (Joint.slide j0 : Joint K) := ⟨le_of_eq h0, hf⟩
  have hall : ∀ (phs : List (JointPhase K)) (jt : Joint K), slideNonpos jt → slideNonpos (phs.foldl (runPhase M inf dt) jt) := by
    intro phs
    induction phs with
    | nil => intro jt h; exact h
    | cons q qs ih => intro jt h; exact ih _ (slideNonpos_phase M inf dt hdt jt q h)
  have hj' : slideNonpos (Joint.slide j) := by rw [← hj]; exact hall phases _ hstart
  have hpre : slideNonpos (Joint.slide (j.preStep M a0 b0 dt)) :=
    slideNonpos_phase M inf dt hdt (.slide j) (.preStep a0 b0) hj'
  have hiter : ∀ m q, iterateJoint M dt (.slide (j.preStep M a0 b0 dt)) bodies m = .slide q →
      q.jnAcc ≤ 0 ∧ 0 ≤ q.maxForce ∧ q.n = (j.preStep M a0 b0 dt).n := by
    intro m
    induction m with
    | zero => intro q hq; cases hq; exact ⟨hpre.1, hpre.2, rfl⟩
    | succ m ih =>
      intro q hq
      cases hprev : iterateJoint M dt (.slide (j.preStep M a0 b0 dt)) bodies m with
      | slide r =>
        obtain ⟨i1, i2, i3⟩ := ih r hprev
        rw [iterateJoint, hprev] at hq
        simp only [Joint.applyImpulse, Joint.slide.injEq] at hq
        have hs := slide_acc_nonpos r (bodies m).1 (bodies m).2 dt (mul_nonneg i2 hdt) i1
        rw [← hq]
        refine ⟨hs.1, ?_, hs.2.trans i3⟩
        simp only [SlideJoint.applyImpulse]
        split <;> exact i2
      | _ => rw [iterateJoint, hprev] at hq; simp [Joint.applyImpulse] at hq
  obtain ⟨h1, _, h3⟩ := hiter n p hp
  have hgg : ((b0.p.add (anchorOffset b0 j.anchorB)).sub (a0.p.add (anchorOffset a0 j.anchorA))) = g := rfl
  constructor
  · intro hl
    refine ⟨?_, h1⟩
    rw [h3]
    simp only [SlideJoint.preStep]
    rw [hgg, if_pos hl]
    refine V2.ext ?_ ?_ <;> simp only [V2.unit, V2.scale] <;> ring
  · intro hl
    refine ⟨?_, by linarith⟩
    rw [h3]
    simp only [SlideJoint.preStep]
    rw [hgg, if_neg (not_lt.2 (le_of_lt (lt_of_lt_of_le hl hmm))), if_pos hl]
    refine V2.ext ?_ ?_ <;> simp only [V2.unit, V2.scale, V2.neg] <;> ring

theorem coef_nonneg {M : Mth K} (hM : M.Lawful) (e dt : K) (h0 : 0 ≤ e) (h1 : e ≤ 1) (hdt : 0 ≤ dt) : 0 ≤ biasCoef M e dt := by
  have := hM.pow_le e dt h0 h1 hdt
  simp only [biasCoef]; linarith

theorem clamp_nonneg (x m : K) (hm : 0 ≤ m) (hx : 0 ≤ x) : 0 ≤ clamp x (-m) m := by
  rw [clamp_eq _ _ _ (by linarith)]
  exact le_max_of_le_right (le_min hx hm)

theorem clamp_nonpos (x m : K) (hm : 0 ≤ m) (hx : x ≤ 0) : clamp x (-m) m ≤ 0 := by
  rw [clamp_eq _ _ _ (by linarith)]
  exact max_le (by linarith) (le_trans (min_le_left _ _) hx)

/-- **C40** After any positive number of iterations of a step, the accumulated impulse of a rotary limit joint turns
`b` back: not forwards if the joint is beyond its maximum, not backwards if it is below its minimum. -/
theorem C40_rotaryLimit_inward {M : Mth K} (hM : M.Lawful) (inf dt : K) (hdt : 0 ≤ dt) (j : RotaryLimitJoint K)
    (hf : 0 ≤ j.maxForce) (hmb : 0 ≤ j.maxBias) (he0 : 0 ≤ j.errorBias) (he1 : j.errorBias ≤ 1)
    (a0 b0 : Body K) (bodies : Nat → Body K × Body K) (n : Nat) (p : RotaryLimitJoint K) (hmm : j.min ≤ j.max)
    (hp : iterateJoint M dt (.rotaryLimit (j.preStep M a0 b0 dt)) bodies (n + 1) = .rotaryLimit p) :
    (j.max < b0.angle - a0.angle → p.jAcc ≤ 0) ∧ (b0.angle - a0.angle < j.min → 0 ≤ p.jAcc) := by
  have hc := coef_nonneg hM j.errorBias dt he0 he1 hdt
  have one : ∀ (q : RotaryLimitJoint K) (a b : Body K), 0 ≤ q.maxForce → (q.bias = 0 → q.jAcc = 0) →
      (0 ≤ q.bias → (q.applyImpulse a b dt).2.2.jAcc ≤ 0) ∧ (q.bias ≤ 0 → 0 ≤ (q.applyImpulse a b dt).2.2.jAcc) ∧
      (q.applyImpulse a b dt).2.2.bias = q.bias ∧ (q.applyImpulse a b dt).2.2.maxForce = q.maxForce ∧
      (q.bias = 0 → (q.applyImpulse a b dt).2.2.jAcc = 0) := by
    intro q a b hq hz
    have hmd := mul_nonneg hq hdt
    unfold RotaryLimitJoint.applyImpulse
    split
    · rename_i h0
      exact ⟨fun _ => le_of_eq (hz h0), fun _ => le_of_eq (hz h0).symm, rfl, rfl, hz⟩
    · rename_i h0
      refine ⟨fun hb => ?_, fun hb => ?_, rfl, rfl, fun hb => absurd hb h0⟩
      · simp only [if_neg (not_lt.2 hb)]
        exact (clamp_mem _ _ _ (by linarith)).2
      · simp only [if_pos (lt_of_le_of_ne hb h0)]
        exact (clamp_mem _ _ _ hmd).1
  have iter : ∀ m q, iterateJoint M dt (.rotaryLimit (j.preStep M a0 b0 dt)) bodies m = .rotaryLimit q →
      q.bias = (j.preStep M a0 b0 dt).bias ∧ q.maxForce = j.maxForce ∧ (q.bias = 0 → q.jAcc = 0) := by
    intro m
    induction m with
    | zero =>
      intro q hq; cases hq
      refine ⟨rfl, rfl, ?_⟩
      intro hb
      simp only [RotaryLimitJoint.preStep] at hb ⊢
      rw [if_pos hb]
    | succ m ih =>
      intro q hq
      cases hprev : iterateJoint M dt (.rotaryLimit (j.preStep M a0 b0 dt)) bodies m with
      | rotaryLimit r =>
        obtain ⟨i1, i2, i3⟩ := ih r hprev
        rw [iterateJoint, hprev] at hq
        simp only [Joint.applyImpulse, Joint.rotaryLimit.injEq] at hq
        obtain ⟨o1, o2, o3, o4, o5⟩ := one r (bodies m).1 (bodies m).2 (by rw [i2]; exact hf) i3
        rw [← hq]
        exact ⟨o3.trans i1, o4.trans i2, fun h => o5 (by rw [o3] at h; exact h)⟩
      | _ => rw [iterateJoint, hprev] at hq; simp [Joint.applyImpulse] at hq
  have last : ∃ r, iterateJoint M dt (.rotaryLimit (j.preStep M a0 b0 dt)) bodies n = .rotaryLimit r := by
    cases hprev : iterateJoint M dt (.rotaryLimit (j.preStep M a0 b0 dt)) bodies n with
    | rotaryLimit r => exact ⟨r, rfl⟩
    | _ => rw [iterateJoint, hprev] at hp; simp [Joint.applyImpulse] at hp
  obtain ⟨r, hr⟩ := last
  obtain ⟨i1, i2, i3⟩ := iter n r hr
  rw [iterateJoint, hr] at hp
  simp only [Joint.applyImpulse, Joint.rotaryLimit.injEq] at hp
  obtain ⟨o1, o2, _⟩ := one r (bodies n).1 (bodies n).2 (by rw [i2]; exact hf) i3
  rw [hp] at o1 o2
  constructor
  · intro hl
    apply o1
    rw [i1]
    simp only [RotaryLimitJoint.preStep, if_pos hl]
    apply clamp_nonneg _ _ hmb
    have : 0 ≤ biasCoef M j.errorBias dt * (b0.angle - a0.angle - j.max) := mul_nonneg hc (by linarith)
    rw [show -biasCoef M j.errorBias dt * (j.max - (b0.angle - a0.angle)) / dt
      = biasCoef M j.errorBias dt * (b0.angle - a0.angle - j.max) / dt by ring]
    exact div_nonneg this hdt
  · intro hl
    apply o2
    rw [i1]
    simp only [RotaryLimitJoint.preStep, if_neg (not_lt.2 (le_of_lt (lt_of_lt_of_le hl hmm))), if_pos hl]
    apply clamp_nonpos _ _ hmb
    have : 0 ≤ biasCoef M j.errorBias dt * (j.min - (b0.angle - a0.angle)) := mul_nonneg hc (by linarith)
    have h2 := div_nonneg this hdt
    rw [show -biasCoef M j.errorBias dt * (j.min - (b0.angle - a0.angle)) / dt
      = -(biasCoef M j.errorBias dt * (j.min - (b0.angle - a0.angle)) / dt) by ring]
    linarith

/-- **C40** After any positive number of iterations of a step, the accumulated impulse of a ratchet only ever turns in
the direction of the ratchet. -/
theorem C40_ratchet_inward (M : Mth K) (inf dt : K) (hdt : 0 ≤ dt) (j : RatchetJoint K)
    (hf : 0 ≤ j.maxForce) (a0 b0 : Body K) (bodies : Nat → Body K × Body K) (n : Nat) (p : RatchetJoint K)
    (hp : iterateJoint M dt (.ratchet (j.preStep M a0 b0 dt)) bodies (n + 1) = .ratchet p) :
    0 ≤ p.jAcc * j.ratchet := by
  have one : ∀ (q : RatchetJoint K) (a b : Body K), 0 ≤ q.maxForce → (q.bias = 0 → q.jAcc = 0) →
      0 ≤ (q.applyImpulse a b dt).2.2.jAcc * q.ratchet ∧
      (q.applyImpulse a b dt).2.2.bias = q.bias ∧ (q.applyImpulse a b dt).2.2.maxForce = q.maxForce ∧
      (q.applyImpulse a b dt).2.2.ratchet = q.ratchet ∧
      (q.bias = 0 → (q.applyImpulse a b dt).2.2.jAcc = 0) := by
    intro q a b hq hz
    have hmd := mul_nonneg (mul_nonneg hq hdt) (abs_nonneg q.ratchet)
    unfold RatchetJoint.applyImpulse
    split
    · rename_i h0
      refine ⟨?_, rfl, rfl, rfl, hz⟩
      simp only [hz h0, zero_mul, le_refl]
    · rename_i h0
      refine ⟨?_, rfl, rfl, rfl, fun hb => absurd hb h0⟩
      simp only
      by_cases hr : q.ratchet = 0
      · simp [hr]
      · rw [div_mul_cancel₀ _ hr]
        exact (clamp_mem _ _ _ hmd).1
  have iter : ∀ m q, iterateJoint M dt (.ratchet (j.preStep M a0 b0 dt)) bodies m = .ratchet q →
      q.ratchet = j.ratchet ∧ q.maxForce = j.maxForce ∧ (q.bias = 0 → q.jAcc = 0) := by
    intro m
    induction m with
    | zero =>
      intro q hq; cases hq
      refine ⟨rfl, rfl, ?_⟩
      intro hb
      simp only [RatchetJoint.preStep] at hb ⊢
      rw [if_pos hb]
    | succ m ih =>
      intro q hq
      cases hprev : iterateJoint M dt (.ratchet (j.preStep M a0 b0 dt)) bodies m with
      | ratchet r =>
        obtain ⟨i1, i2, i3⟩ := ih r hprev
        rw [iterateJoint, hprev] at hq
        simp only [Joint.applyImpulse, Joint.ratchet.injEq] at hq
        obtain ⟨o1, o2, o3, o4, o5⟩ := one r (bodies m).1 (bodies m).2 (by rw [i2]; exact hf) i3
        rw [← hq]
        exact ⟨o4.trans i1, o3.trans i2, fun h => o5 (by rw [o2] at h; exact h)⟩
      | _ => rw [iterateJoint, hprev] at hq; simp [Joint.applyImpulse] at hq
  have last : ∃ r, iterateJoint M dt (.ratchet (j.preStep M a0 b0 dt)) bodies n = .ratchet r := by
    cases hprev : iterateJoint M dt (.ratchet (j.preStep M a0 b0 dt)) bodies n with
    | ratchet r => exact ⟨r, rfl⟩
    | _ => rw [iterateJoint, hprev] at hp; simp [Joint.applyImpulse] at hp
  obtain ⟨r, hr⟩ := last
  obtain ⟨i1, i2, i3⟩ := iter n r hr
  rw [iterateJoint, hr] at hp
  simp only [Joint.applyImpulse, Joint.ratchet.injEq] at hp
  have o := (one r (bodies n).1 (bodies n).2 (by rw [i2]; exact hf) i3).1
  rw [hp, i1] at o
  exact o

/-- The warm start of a rotary limit joint can push outwards: a joint that was below its minimum in the last step
and has swung past its maximum in this one first pushes `b` further on; the first iteration takes it back. -/
theorem C40_rotaryLimit_warm_start :
    let j : RotaryLimitJoint ℚ := { maxForce := 10, errorBias := 1/2, maxBias := 10, min := -1, max := 1, iSum := 0, bias := 0, jAcc := 0 }
    let a : Body ℚ := exFloor
    let below : Body ℚ := { exBlock with angle := -2, w := 4 }
    let j1 := ((j.preStep toyMth a { below with w := -1 } 1).applyImpulse a { below with w := -1 } 1).2.2
    let above : Body ℚ := { exBlock with angle := 2, w := 4 }
    let p := j1.preStep toyMth a above 1
    above.w < (p.applyCached a above 1).2.w := by
  decide +kernel

/-! ## C68: springs -/

/-- **C68** Damped spring: prepared with non-negative damping, an iteration moves the relative velocity along the
spring towards the target by a factor in (0, 1], and stores the new value as the next target. -/
theorem C68_spring {M : Mth K} (hM : M.Lawful) (inf dt : K) (hdt : 0 ≤ dt) (s0 : DampedSpring K) (a0 b0 : Body K)
    (hd : 0 ≤ s0.damping) (hm : Movable a0 b0) (hg : gap a0 b0 s0.anchorA s0.anchorB ≠ V2.zero)
    (n : Nat) (bodies : Nat → Body K × Body K) (s : DampedSpring K)
    (hs : iterateJoint M dt ((Joint.spring s0).preStep M inf a0 b0 dt).2.2 bodies n = .spring s)
    (a b : Body K) (ha : SameBut a0 a) (hb : SameBut b0 b) :
    let t := s.applyImpulse a b
    let g := gap a0 b0 s0.anchorA s0.anchorB
    let rate := fun x y => approach x y (anchorOffset a0 s0.anchorA) (anchorOffset b0 s0.anchorB) (g.scale (1 / g.mag M))
    ∃ f, 0 < f ∧ f ≤ 1 ∧ rate t.1 t.2.1 - s.targetVrn = f * (rate a b - s.targetVrn) ∧
      t.2.2.targetVrn = rate t.1 t.2.1 := by
  intro t g rate
  have hgm : g.mag M ≠ 0 := fun e => hg (mag_eq_zero hM _ e)
  have hn := mag_scale_inv hM g hg
  set P := (s0.preStep M inf a0 b0 dt).2.2 with hP
  have p1 : P.r1 = anchorOffset a0 s0.anchorA := rfl
  have p2 : P.r2 = anchorOffset b0 s0.anchorB := rfl
  have p3 : P.n = g.scale (1 / g.mag M) := by
    rw [hP]
    simp only [DampedSpring.preStep]
    exact if_pos hgm
  have p4 : P.nMass = 1 / kScalar a0 b0 P.r1 P.r2 P.n := rfl
  have p5 : P.vCoef = 1 - M.exp (-s0.damping * dt * kScalar a0 b0 P.r1 P.r2 P.n) := rfl
  have iter : ∀ m q, iterateJoint M dt (.spring P) bodies m = .spring q →
      q.r1 = P.r1 ∧ q.r2 = P.r2 ∧ q.n = P.n ∧ q.nMass = P.nMass ∧ q.vCoef = P.vCoef := by
    intro m
    induction m with
    | zero => intro q hq; cases hq; exact ⟨rfl, rfl, rfl, rfl, rfl⟩
    | succ m ih =>
      intro q hq
      cases hprev : iterateJoint M dt (.spring P) bodies m with
      | spring r =>
        rw [iterateJoint, hprev] at hq
        simp only [Joint.applyImpulse, Joint.spring.injEq] at hq
        rw [← hq]
        exact ih r hprev
      | _ => rw [iterateJoint, hprev] at hq; simp [Joint.applyImpulse] at hq
  obtain ⟨q1, q2, q3, q4, q5⟩ := iter n s hs
  have hk := kScalar_pos hm P.r1 P.r2 P.n
  have hx : -s0.damping * dt * kScalar a0 b0 P.r1 P.r2 P.n ≤ 0 := by
    have := mul_nonneg (mul_nonneg hd hdt) (le_of_lt hk)
    linarith [neg_mul s0.damping dt, neg_mul (s0.damping * dt) (kScalar a0 b0 P.r1 P.r2 P.n),
      show -s0.damping * dt * kScalar a0 b0 P.r1 P.r2 P.n = -(s0.damping * dt * kScalar a0 b0 P.r1 P.r2 P.n) by ring]
  have hrate : rate t.1 t.2.1 = rate a b + (s.targetVrn - rate a b) * s.vCoef := by
    simp only [t, rate, DampedSpring.applyImpulse]
    rw [normalRelativeVelocity_eq, q1, q2, q3, q4, p4, p1, p2, p3, approach_scale _ _ _ _ _ hn, SameBut.kScalar ha hb]
    have := ne_of_gt hk
    rw [p1, p2, p3] at this
    field_simp
  refine ⟨M.exp (-s0.damping * dt * kScalar a0 b0 P.r1 P.r2 P.n), hM.exp_pos _, hM.exp_le _ hx, ?_, ?_⟩
  · rw [hrate, q5, p5]; ring
  · rw [hrate]
    simp only [t, rate, DampedSpring.applyImpulse]
    rw [normalRelativeVelocity_eq, q1, q2, q3, p1, p2, p3]

/-- **C68** Damped rotary spring: the same for the relative rate of turning. -/
theorem C68_rotarySpring {M : Mth K} (hM : M.Lawful) (inf dt : K) (hdt : 0 ≤ dt) (s0 : DampedRotarySpring K) (a0 b0 : Body K)
    (hd : 0 ≤ s0.damping) (hm : Turnable a0 b0)
    (n : Nat) (bodies : Nat → Body K × Body K) (s : DampedRotarySpring K)
    (hs : iterateJoint M dt ((Joint.rotarySpring s0).preStep M inf a0 b0 dt).2.2 bodies n = .rotarySpring s)
    (a b : Body K) (ha : SameBut a0 a) (hb : SameBut b0 b) :
    let t := s.applyImpulse a b
    ∃ f, 0 < f ∧ f ≤ 1 ∧ (t.1.w - t.2.1.w) - s.targetWrn = f * ((a.w - b.w) - s.targetWrn) ∧
      t.2.2.targetWrn = t.1.w - t.2.1.w := by
  intro t
  set P := (s0.preStep M a0 b0 dt).2.2 with hP
  have p4 : P.iSum = 1 / (a0.iInv + b0.iInv) := rfl
  have p5 : P.wCoef = 1 - M.exp (-s0.damping * dt * (a0.iInv + b0.iInv)) := rfl
  have iter : ∀ m q, iterateJoint M dt (.rotarySpring P) bodies m = .rotarySpring q →
      q.iSum = P.iSum ∧ q.wCoef = P.wCoef := by
    intro m
    induction m with
    | zero => intro q hq; cases hq; exact ⟨rfl, rfl⟩
    | succ m ih =>
      intro q hq
      cases hprev : iterateJoint M dt (.rotarySpring P) bodies m with
      | rotarySpring r =>
        rw [iterateJoint, hprev] at hq
        simp only [Joint.applyImpulse, Joint.rotarySpring.injEq] at hq
        rw [← hq]
        exact ih r hprev
      | _ => rw [iterateJoint, hprev] at hq; simp [Joint.applyImpulse] at hq
  obtain ⟨q4, q5⟩ := iter n s hs
  have hk := hm.2.2
  have hx : -s0.damping * dt * (a0.iInv + b0.iInv) ≤ 0 := by
    have := mul_nonneg (mul_nonneg hd hdt) (le_of_lt hk)
    rw [show -s0.damping * dt * (a0.iInv + b0.iInv) = -(s0.damping * dt * (a0.iInv + b0.iInv)) by ring]
    linarith
  have hrate : t.1.w - t.2.1.w = (a.w - b.w) + (s.targetWrn - (a.w - b.w)) * s.wCoef := by
    simp only [t, DampedRotarySpring.applyImpulse]
    rw [q4, p4, ha.iInv, hb.iInv]
    have := ne_of_gt hk
    field_simp
    ring
  refine ⟨M.exp (-s0.damping * dt * (a0.iInv + b0.iInv)), hM.exp_pos _, hM.exp_le _ hx, ?_, ?_⟩
  · rw [hrate, q5, p5]; ring
  · rw [hrate]
    simp only [t, DampedRotarySpring.applyImpulse]

/-- The kinetic energy after an impulse along `n`. -/
theorem energy_scale (a b : Body K) (ha : FiniteMass a) (hb : FiniteMass b) (ha' : FiniteMoment a) (hb' : FiniteMoment b)
    (r1 r2 n : V2 K) (hn : n.x ^ 2 + n.y ^ 2 = 1) (j : K) :
    energy2 (applyImpulses a b r1 r2 (n.scale j)).1 + energy2 (applyImpulses a b r1 r2 (n.scale j)).2
      = energy2 a + energy2 b + j * (2 * approach a b r1 r2 n + j * kScalar a b r1 r2 n) := by
  unfold FiniteMass at ha hb
  unfold FiniteMoment at ha' hb'
  simp only [energy2, applyImpulses, approach, pointVel, kScalar, kScalarBody, V2.scale, V2.cross]
  linear_combination (2 * (b.v.x * n.x + b.v.y * n.y) * j + b.mInv * j ^ 2 * (n.x ^ 2 + n.y ^ 2)) * hb
    + (-2 * (a.v.x * n.x + a.v.y * n.y) * j + a.mInv * j ^ 2 * (n.x ^ 2 + n.y ^ 2)) * ha
    + (2 * b.w * j * (r2.x * n.y - r2.y * n.x) + b.iInv * j ^ 2 * (r2.x * n.y - r2.y * n.x) ^ 2) * hb'
    + (-2 * a.w * j * (r1.x * n.y - r1.y * n.x) + a.iInv * j ^ 2 * (r1.x * n.y - r1.y * n.x) ^ 2) * ha'
    + (a.mInv + b.mInv) * j ^ 2 * hn

/-- **C68** The damping of a spring takes energy out: the first iteration of a step never increases the kinetic
energy of two finite bodies. -/
theorem C68_energy {M : Mth K} (hM : M.Lawful) (inf dt : K) (hdt : 0 ≤ dt) (s0 : DampedSpring K) (a0 b0 : Body K)
    (hd : 0 ≤ s0.damping) (hm : Movable a0 b0) (hg : gap a0 b0 s0.anchorA s0.anchorB ≠ V2.zero)
    (a b : Body K) (ha : SameBut a0 a) (hb : SameBut b0 b)
    (fa : FiniteMass a0) (fb : FiniteMass b0) (fa' : FiniteMoment a0) (fb' : FiniteMoment b0) :
    let t := (s0.preStep M inf a0 b0 dt).2.2.applyImpulse a b
    energy2 t.1 + energy2 t.2.1 ≤ energy2 a + energy2 b := by
  intro t
  set g := gap a0 b0 s0.anchorA s0.anchorB with hgdef
  have hgm : g.mag M ≠ 0 := fun e => hg (mag_eq_zero hM _ e)
  have hn := mag_scale_inv hM g hg
  set P := (s0.preStep M inf a0 b0 dt).2.2 with hP
  have p3 : P.n = g.scale (1 / g.mag M) := by
    rw [hP]
    simp only [DampedSpring.preStep]
    exact if_pos hgm
  have p4 : P.nMass = 1 / kScalar a0 b0 P.r1 P.r2 P.n := rfl
  have p5 : P.vCoef = 1 - M.exp (-s0.damping * dt * kScalar a0 b0 P.r1 P.r2 P.n) := rfl
  have p6 : P.targetVrn = 0 := rfl
  have hk := kScalar_pos hm P.r1 P.r2 P.n
  have hx : -s0.damping * dt * kScalar a0 b0 P.r1 P.r2 P.n ≤ 0 := by
    have := mul_nonneg (mul_nonneg hd hdt) (le_of_lt hk)
    rw [show -s0.damping * dt * kScalar a0 b0 P.r1 P.r2 P.n = -(s0.damping * dt * kScalar a0 b0 P.r1 P.r2 P.n) by ring]
    linarith
  have c0 : 0 ≤ P.vCoef := by rw [p5]; linarith [hM.exp_le _ hx]
  have c1 : P.vCoef ≤ 1 := by rw [p5]; linarith [hM.exp_pos (-s0.damping * dt * kScalar a0 b0 P.r1 P.r2 P.n)]
  have hn' : P.n.x ^ 2 + P.n.y ^ 2 = 1 := by rw [p3]; exact hn
  have hE := energy_scale a b (ha.finiteMass.1 fa) (hb.finiteMass.1 fb) (ha.finiteMoment.1 fa') (hb.finiteMoment.1 fb')
    P.r1 P.r2 P.n hn' ((P.targetVrn - normalRelativeVelocity a b P.r1 P.r2 P.n) * P.vCoef * P.nMass)
  have ht : energy2 t.1 + energy2 t.2.1 = _ := hE
  rw [ht, normalRelativeVelocity_eq, p6, p4, SameBut.kScalar ha hb]
  generalize approach a b P.r1 P.r2 P.n = v
  generalize kScalar a0 b0 P.r1 P.r2 P.n = k at hk
  have hk' := ne_of_gt hk
  have e : (0 - v) * P.vCoef * (1 / k) * (2 * v + (0 - v) * P.vCoef * (1 / k) * k)
      = -(v ^ 2 * P.vCoef * (2 - P.vCoef) / k) := by
    field_simp; ring
  rw [e]
  have : 0 ≤ v ^ 2 * P.vCoef * (2 - P.vCoef) / k := by
    apply div_nonneg _ (le_of_lt hk)
    exact mul_nonneg (mul_nonneg (sq_nonneg v) c0) (by linarith)
  linarith

/-! ### The hypotheses are met -/

example : (exSl 0 3).min ≤ (gap exRA exRB (exSl 0 3).anchorA (exSl 0 3).anchorB).mag realMth ∧
    (gap exRA exRB (exSl 0 3).anchorA (exSl 0 3).anchorB).mag realMth ≤ (exSl 0 3).max := by
  refine ⟨?_, ?_⟩ <;> (try unfold exSl) <;> eval_model

example : ({ exLimit with max := 7 } : RotaryLimitJoint ℝ).min ≤ exRB.angle - exRA.angle ∧
    exRB.angle - exRA.angle ≤ ({ exLimit with max := 7 } : RotaryLimitJoint ℝ).max := by
  refine ⟨?_, ?_⟩ <;> (try unfold exLimit) <;> eval_model

example : ({ exRatchet with ratchet := 1 } : RatchetJoint ℝ).ratchet ≠ 0 ∧
    (({ exRatchet with ratchet := 1 } : RatchetJoint ℝ).angle - (exRB.angle - exRA.angle)) * 1 ≤ 0 := by
  refine ⟨?_, ?_⟩ <;> (try unfold exRatchet) <;> eval_model

/-- A new slide joint too long, after one iteration, with no history. -/
example : ∃ p, iterateJoint realMth 1 (.slide ((exSl 0 (1/2)).preStep realMth exRA exRB 1)) (fun _ => (exRA, exRB)) 1 = .slide p ∧
    (exSl 0 (1/2)).jnAcc = 0 ∧ (exSl 0 (1/2)).min ≤ (exSl 0 (1/2)).max ∧ p.jnAcc < 0 := by
  refine ⟨_, rfl, rfl, ?_, ?_⟩ <;> (try unfold exSl) <;> eval_model

example : ∃ p, iterateJoint realMth 1 (.rotaryLimit (exLimit.preStep realMth exRA exRB 1)) (fun _ => (exRA, exRB)) 1 = .rotaryLimit p ∧
    exLimit.max < exRB.angle - exRA.angle ∧ p.jAcc < 0 := by
  refine ⟨_, rfl, ?_, ?_⟩ <;> (try unfold exLimit) <;> eval_model

example : ∃ p, iterateJoint realMth 1 (.ratchet (exRatchet.preStep realMth exRA exRB 1)) (fun _ => (exRA, exRB)) 1 = .ratchet p ∧
    0 < p.jAcc * exRatchet.ratchet := by
  refine ⟨_, rfl, ?_⟩ <;> (try unfold exRatchet) <;> eval_model

noncomputable def exSpring : DampedSpring ℝ :=
  { anchorA := ⟨0, 0⟩, anchorB := ⟨0, 0⟩, damping := 1, forceFn := DampedSpring.defaultForce 2 3, targetVrn := 0, vCoef := 0,
    r1 := ⟨0, 0⟩, r2 := ⟨0, 0⟩, nMass := 0, n := ⟨0, 0⟩, jAcc := 0 }

/-- A spring with damping between moving finite bodies. -/
example : 0 ≤ exSpring.damping ∧ Movable exRA exRB ∧ gap exRA exRB exSpring.anchorA exSpring.anchorB ≠ V2.zero ∧
    FiniteMass exRA ∧ FiniteMass exRB ∧ FiniteMoment exRA ∧ FiniteMoment exRB ∧ SameBut exRA exRA ∧ SameBut exRB exRB ∧
    (∃ s, iterateJoint realMth 1 ((Joint.spring exSpring).preStep realMth 1000 exRA exRB 1).2.2 (fun _ => (exRA, exRB)) 1 = .spring s) ∧
    approach exRA exRB ⟨0, 0⟩ ⟨0, 0⟩ ⟨1, 0⟩ = 3 := by
  refine ⟨?_, ?_, ?_, ?_, ?_, ?_, ?_, rfl, rfl, ⟨_, rfl⟩, ?_⟩ <;> (try unfold exSpring) <;> (try unfold FiniteMass) <;>
    (try unfold FiniteMoment) <;> (try simp only [approach, pointVel]) <;> eval_model

example : (0:ℝ) ≤ (⟨1, DampedRotarySpring.defaultTorque 0 1, 0, 0, 0, 0⟩ : DampedRotarySpring ℝ).damping ∧ Turnable exRA exRB ∧
    exRA.w - exRB.w ≠ 0 := by
  refine ⟨?_, ?_, ?_⟩ <;> eval_model

end Cm
