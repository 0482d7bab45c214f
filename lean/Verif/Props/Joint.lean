import Verif.Props.Contact
/-! # C37, C38: joints, force limits and momentum -/
set_option linter.unusedSectionVars false
set_option linter.unusedSimpArgs false

namespace Cm
open Spec
variable {K : Type} [Field K] [LinearOrder K] [IsStrictOrderedRing K]

/-! ## Lemmas on clamping -/

theorem clamp_abs_le (f m : K) (h : 0 ≤ m) : |clamp f (-m) m| ≤ m := by
  rw [clamp_eq _ _ _ (by linarith), abs_le]
  exact ⟨le_max_left _ _, max_le (by linarith) (min_le_right _ _)⟩

theorem clamp_mem (f lo hi : K) (h : lo ≤ hi) : lo ≤ clamp f lo hi ∧ clamp f lo hi ≤ hi := by
  rw [clamp_eq _ _ _ h]
  exact ⟨le_max_left _ _, max_le h (min_le_right _ _)⟩

theorem clamp_inside (f lo hi : K) (h : lo ≤ hi) (h1 : lo < clamp f lo hi) (h2 : clamp f lo hi < hi) :
    clamp f lo hi = f := by
  rw [clamp_eq _ _ _ h] at *
  rcases le_total f hi with h3 | h3
  · rw [min_eq_left h3] at *
    rcases le_total lo f with h4 | h4
    · exact max_eq_right h4
    · rw [max_eq_left h4] at h1; exact absurd h1 (lt_irrefl _)
  · rw [min_eq_right h3, max_eq_right h] at h2; exact absurd h2 (lt_irrefl _)

theorem lengthSq_nonneg (v : V2 K) : 0 ≤ v.lengthSq := by
  exact add_nonneg (mul_self_nonneg _) (mul_self_nonneg _)

theorem lengthSq_eq_zero (v : V2 K) (h : v.lengthSq = 0) : v = V2.zero := by
  simp only [V2.lengthSq, V2.dot] at h
  have hx := mul_self_nonneg v.x
  have hy := mul_self_nonneg v.y
  refine V2.ext ?_ ?_ <;> simp only [V2.zero]
  · exact mul_self_eq_zero.1 (by linarith)
  · exact mul_self_eq_zero.1 (by linarith)

theorem mag_nonneg {M : Mth K} (hM : M.Lawful) (v : V2 K) : 0 ≤ v.mag M :=
  hM.sqrt_nonneg _ (lengthSq_nonneg v)

theorem mag_sq {M : Mth K} (hM : M.Lawful) (v : V2 K) : v.mag M * v.mag M = v.lengthSq :=
  hM.sqrt_sq _ (lengthSq_nonneg v)

theorem mag_eq_zero {M : Mth K} (hM : M.Lawful) (v : V2 K) (h : v.mag M = 0) : v = V2.zero := by
  apply lengthSq_eq_zero
  rw [← mag_sq hM, h, mul_zero]

theorem mag_zero {M : Mth K} (hM : M.Lawful) : (V2.zero : V2 K).mag M = 0 := by
  have := mag_sq hM (V2.zero : V2 K)
  have e : (V2.zero : V2 K).lengthSq = 0 := by simp [V2.zero, V2.lengthSq, V2.dot]
  rw [e] at this
  exact mul_self_eq_zero.1 this

theorem mag_le {M : Mth K} (hM : M.Lawful) (v : V2 K) (m : K) (hm : 0 ≤ m) (h : v.lengthSq ≤ m * m) :
    v.mag M ≤ m := by
  by_contra hc
  have hc := not_le.1 hc
  have : m * m < v.mag M * v.mag M := mul_self_lt_mul_self hm hc
  rw [mag_sq hM] at this
  linarith

theorem mag_scale_inv {M : Mth K} (hM : M.Lawful) (v : V2 K) (h : v ≠ V2.zero) :
    (v.scale (1 / v.mag M)).x ^ 2 + (v.scale (1 / v.mag M)).y ^ 2 = 1 := by
  have hne : v.mag M ≠ 0 := fun e => h (mag_eq_zero hM v e)
  have := mag_sq hM v
  simp only [V2.scale, V2.lengthSq, V2.dot] at *
  field_simp
  linear_combination -this

theorem clampMag_lengthSq {M : Mth K} (hM : M.Lawful) (v : V2 K) (m : K) :
    (v.clampMag M m).lengthSq ≤ m * m := by
  unfold V2.clampMag
  split
  · rename_i h
    have hne : v ≠ V2.zero := by
      rintro rfl
      simp only [V2.zero, V2.dot, mul_zero, add_zero] at h
      exact absurd h (not_lt.2 (mul_self_nonneg m))
    have e := mag_scale_inv hM v hne
    simp only [V2.unit, V2.scale, V2.lengthSq, V2.dot] at *
    apply le_of_eq
    linear_combination m * m * e
  · rename_i h
    exact not_lt.1 h

theorem clampMag_mag_le {M : Mth K} (hM : M.Lawful) (v : V2 K) (m : K) (hm : 0 ≤ m) :
    (v.clampMag M m).mag M ≤ m := mag_le hM _ _ hm (clampMag_lengthSq hM v m)

theorem clampMag_inside {M : Mth K} (hM : M.Lawful) (v : V2 K) (m : K)
    (h : (v.clampMag M m).lengthSq < m * m) : v.clampMag M m = v := by
  unfold V2.clampMag at *
  split
  · rename_i hc
    rw [if_pos hc] at h
    have hne : v ≠ V2.zero := by
      rintro rfl
      simp only [V2.zero, V2.dot, mul_zero, add_zero] at hc
      exact absurd hc (not_lt.2 (mul_self_nonneg m))
    have e := mag_scale_inv hM v hne
    simp only [V2.unit, V2.scale, V2.lengthSq, V2.dot] at *
    exfalso
    apply absurd h
    apply not_lt.2
    apply le_of_eq
    linear_combination (-(m * m)) * e
  · rfl

theorem unit_ne_zero {M : Mth K} (hM : M.Lawful) (v : V2 K) (h : v ≠ V2.zero) : v.unit M ≠ V2.zero := by
  intro e
  have := mag_scale_inv hM v h
  have e' : v.scale (1 / v.mag M) = V2.zero := e
  rw [e'] at this
  simp [V2.zero] at this

/-! ## C37 -/

namespace Spec
/-- The force limit of a joint; springs have none. -/
def maxForce : Joint K → Option K
  | .pin j => some j.maxForce
  | .slide j => some j.maxForce
  | .pivot j => some j.maxForce
  | .groove j => some j.maxForce
  | .gear j => some j.maxForce
  | .ratchet j => some j.maxForce
  | .rotaryLimit j => some j.maxForce
  | .motor j => some j.maxForce
  | .spring _ => none
  | .rotarySpring _ => none

/-- The ratchet's step is not zero (a zero step is a division by zero in the code). -/
def RatchetOk : Joint K → Prop
  | .ratchet j => j.ratchet ≠ 0
  | _ => True

/-- The two anchors of a slide joint are at different world points. -/
def AnchorsApart (jt : Joint K) (a b : Body K) : Prop :=
  match jt with
  | .slide j => b.p.add (b.tr.applyVector (j.anchorB.sub b.cog)) ≠ a.p.add (a.tr.applyVector (j.anchorA.sub a.cog))
  | _ => True

/-- The reported impulse respects the force limit. -/
def Respects (M : Mth K) (dt : K) (jt : Joint K) : Prop := ∀ f ∈ maxForce jt, jt.getImpulse M ≤ f * dt

/-- A joint with its limit not negative. -/
def LimitOk (jt : Joint K) : Prop := ∀ f ∈ maxForce jt, 0 ≤ f

/-- `n` iterations; `bodies` is what the rest of the space makes of the two bodies before each. -/
def iterateJoint (M : Mth K) (dt : K) (jt : Joint K) (bodies : Nat → Body K × Body K) : Nat → Joint K
  | 0 => jt
  | n + 1 => ((iterateJoint M dt jt bodies n).applyImpulse M (bodies n).1 (bodies n).2 dt).2.2
end Spec

/-- A limit joint that is switched off has no accumulated impulse. -/
def offIsZero : Joint K → Prop
  | .slide j => j.n = V2.zero → j.jnAcc = 0
  | .ratchet j => j.bias = 0 → j.jAcc = 0
  | .rotaryLimit j => j.bias = 0 → j.jAcc = 0
  | _ => True

theorem applyImpulse_fixed (M : Mth K) (dt : K) (jt : Joint K) (a b : Body K) :
    maxForce (jt.applyImpulse M a b dt).2.2 = maxForce jt ∧
    (RatchetOk (jt.applyImpulse M a b dt).2.2 ↔ RatchetOk jt) := by
  cases jt with
  | slide j =>
    simp only [Joint.applyImpulse, maxForce, RatchetOk, SlideJoint.applyImpulse]
    split <;> exact ⟨rfl, trivial⟩
  | ratchet j =>
    simp only [Joint.applyImpulse, maxForce, RatchetOk, RatchetJoint.applyImpulse]
    split <;> exact ⟨rfl, Iff.rfl⟩
  | rotaryLimit j =>
    simp only [Joint.applyImpulse, maxForce, RatchetOk, RotaryLimitJoint.applyImpulse]
    split <;> exact ⟨rfl, trivial⟩
  | _ => exact ⟨rfl, Iff.rfl⟩

theorem preStep_fixed (M : Mth K) (inf dt : K) (jt : Joint K) (a b : Body K) :
    maxForce (jt.preStep M inf a b dt).2.2 = maxForce jt ∧
    (RatchetOk (jt.preStep M inf a b dt).2.2 ↔ RatchetOk jt) := by
  cases jt <;> exact ⟨rfl, Iff.rfl⟩

theorem applyImpulse_off (M : Mth K) (dt : K) (jt : Joint K) (a b : Body K) (h : offIsZero jt) :
    offIsZero (jt.applyImpulse M a b dt).2.2 := by
  cases jt <;> simp only [Joint.applyImpulse, offIsZero] at * 
  · rename_i j
    simp only [SlideJoint.applyImpulse]
    split
    · exact h
    · rename_i hn; intro e; exact absurd e hn
  · rename_i j
    simp only [RatchetJoint.applyImpulse]
    split
    · exact h
    · rename_i hn; intro e; exact absurd e hn
  · rename_i j
    simp only [RotaryLimitJoint.applyImpulse]
    split
    · exact h
    · rename_i hn; intro e; exact absurd e hn

theorem applyImpulse_respects {M : Mth K} (hM : M.Lawful) (dt : K) (hdt : 0 ≤ dt) (jt : Joint K) (a b : Body K)
    (hl : LimitOk jt) (hr : RatchetOk jt) (h : offIsZero jt ∨ Respects M dt jt) :
    Respects M dt (jt.applyImpulse M a b dt).2.2 := by
  intro f hf
  rw [(applyImpulse_fixed M dt jt a b).1] at hf
  have hf0 := mul_nonneg (hl f hf) hdt
  cases jt with
  | pin j =>
    obtain rfl : j.maxForce = f := by simpa [maxForce] using hf
    exact clamp_abs_le _ _ hf0
  | slide j =>
    obtain rfl : j.maxForce = f := by simpa [maxForce] using hf
    simp only [Joint.applyImpulse, Joint.getImpulse, SlideJoint.applyImpulse, SlideJoint.getImpulse, fabs_eq]
    split
    · rename_i hn
      rcases h with h | h
      · simp only [offIsZero] at h; simp only [h hn, abs_zero]; exact hf0
      · exact h _ hf
    · simp only
      have hle : -j.maxForce * dt ≤ 0 := by linarith
      have := clamp_mem (j.jnAcc + (j.bias - (relativeVelocity a b j.r1 j.r2).dot j.n) * j.nMass)
        (-j.maxForce * dt) 0 hle
      rw [abs_le]
      exact ⟨by linarith [this.1], by linarith [this.2]⟩
  | pivot j =>
    obtain rfl : j.maxForce = f := by simpa [maxForce] using hf
    exact clampMag_mag_le hM _ _ hf0
  | groove j =>
    obtain rfl : j.maxForce = f := by simpa [maxForce] using hf
    exact clampMag_mag_le hM _ _ hf0
  | gear j =>
    obtain rfl : j.maxForce = f := by simpa [maxForce] using hf
    exact clamp_abs_le _ _ hf0
  | ratchet j =>
    obtain rfl : j.maxForce = f := by simpa [maxForce] using hf
    simp only [Joint.applyImpulse, Joint.getImpulse, RatchetJoint.applyImpulse, RatchetJoint.getImpulse, fabs_eq]
    split
    · rename_i hn
      rcases h with h | h
      · simp only [offIsZero] at h; simp only [h hn, abs_zero]; exact hf0
      · exact h _ hf
    · simp only
      have hr' : j.ratchet ≠ 0 := hr
      have hpos : 0 < |j.ratchet| := abs_pos.2 hr'
      have := clamp_mem ((j.jAcc + -(j.bias + (b.w - a.w)) * j.iSum) * j.ratchet) 0
        (j.maxForce * dt * |j.ratchet|) (mul_nonneg hf0 hpos.le)
      rw [abs_div, div_le_iff₀ hpos, abs_of_nonneg this.1]
      exact this.2
  | rotaryLimit j =>
    obtain rfl : j.maxForce = f := by simpa [maxForce] using hf
    simp only [Joint.applyImpulse, Joint.getImpulse, RotaryLimitJoint.applyImpulse, RotaryLimitJoint.getImpulse, fabs_eq]
    split
    · rename_i hn
      rcases h with h | h
      · simp only [offIsZero] at h; simp only [h hn, abs_zero]; exact hf0
      · exact h _ hf
    · simp only
      split
      · have := clamp_mem (j.jAcc + -(j.bias + (b.w - a.w)) * j.iSum) 0 (j.maxForce * dt) hf0
        rw [abs_of_nonneg this.1]; exact this.2
      · have := clamp_mem (j.jAcc + -(j.bias + (b.w - a.w)) * j.iSum) (-(j.maxForce * dt)) 0 (by linarith)
        rw [abs_of_nonpos this.2]; linarith [this.1]
  | motor j =>
    obtain rfl : j.maxForce = f := by simpa [maxForce] using hf
    exact clamp_abs_le _ _ hf0
  | spring j => simp [maxForce] at hf
  | rotarySpring j => simp [maxForce] at hf

theorem preStep_off {M : Mth K} (hM : M.Lawful) (inf dt : K) (jt : Joint K) (a b : Body K)
    (h : AnchorsApart jt a b) : offIsZero (jt.preStep M inf a b dt).2.2 := by
  cases jt <;> simp only [Joint.preStep, offIsZero]
  · rename_i j
    simp only [AnchorsApart] at h
    have hne : (b.p.add (anchorOffset b j.anchorB)).sub (a.p.add (anchorOffset a j.anchorA)) ≠ V2.zero := by
      intro e
      apply h
      have e := V2.ext_iff.1 e
      simp only [V2.sub, V2.zero] at e
      exact V2.ext (sub_eq_zero.1 e.1) (sub_eq_zero.1 e.2)
    have hu := unit_ne_zero hM _ hne
    simp only [SlideJoint.preStep]
    split
    · intro e; exact absurd e hu
    · split
      · intro e
        exfalso; apply hu
        have e := V2.ext_iff.1 e
        simp only [V2.neg, V2.zero, neg_eq_zero] at e
        exact V2.ext e.1 e.2
      · intro _; rfl
  · rename_i j
    simp only [RatchetJoint.preStep]
    intro e; rw [if_pos e]
  · rename_i j
    simp only [RotaryLimitJoint.preStep]
    intro e; rw [if_pos e]

/-- **C37** After `PreStep` and one or more iterations of a step, from any state of the joint (so also when the
time step or the limit was changed since the last step), the reported impulse is within the limit. For slide
joints the anchors are at different points; see `C37_slide_coincident`. -/
theorem C37_limit {M : Mth K} (hM : M.Lawful) (inf dt : K) (hdt : 0 ≤ dt) (jt : Joint K) (a b : Body K)
    (bodies : Nat → Body K × Body K) (n : Nat) (hl : LimitOk jt) (hr : RatchetOk jt)
    (h : AnchorsApart jt a b) :
    Respects M dt (iterateJoint M dt (jt.preStep M inf a b dt).2.2 bodies (n + 1)) := by
  have key : ∀ m, maxForce (iterateJoint M dt (jt.preStep M inf a b dt).2.2 bodies m) = maxForce jt ∧
      RatchetOk (iterateJoint M dt (jt.preStep M inf a b dt).2.2 bodies m) ∧
      offIsZero (iterateJoint M dt (jt.preStep M inf a b dt).2.2 bodies m) := by
    intro m
    induction m with
    | zero =>
      have := preStep_fixed M inf dt jt a b
      exact ⟨this.1, this.2.2 hr, preStep_off hM inf dt jt a b h⟩
    | succ m ih =>
      have := applyImpulse_fixed M dt (iterateJoint M dt (jt.preStep M inf a b dt).2.2 bodies m)
        (bodies m).1 (bodies m).2
      exact ⟨this.1.trans ih.1, this.2.2 ih.2.1, applyImpulse_off M dt _ _ _ ih.2.2⟩
  obtain ⟨k1, k2, k3⟩ := key n
  exact applyImpulse_respects hM dt hdt _ _ _ (by unfold LimitOk; rw [k1]; exact hl) k2 (Or.inl k3)

theorem preStep_respects (M : Mth K) (inf dt : K) (hdt : 0 ≤ dt) (jt : Joint K) (a b : Body K)
    (hl : LimitOk jt) (h : Respects M dt jt) : Respects M dt (jt.preStep M inf a b dt).2.2 := by
  intro f hf
  rw [(preStep_fixed M inf dt jt a b).1] at hf
  have hf0 := mul_nonneg (hl f hf) hdt
  have hb := h f hf
  cases jt <;> simp only [Joint.preStep, Joint.getImpulse] at * <;> (try exact hb)
  · rename_i j
    simp only [SlideJoint.preStep, SlideJoint.getImpulse, fabs_eq] at *
    split
    · exact hb
    · split
      · exact hb
      · simpa using hf0
  · rename_i j
    have : ∀ c : Prop, ∀ _ : Decidable c, |if c then 0 else j.jAcc| ≤ f * dt := by
      intro c _
      split
      · simpa using hf0
      · exact hb
    exact this _ _
  · rename_i j
    have : ∀ c : Prop, ∀ _ : Decidable c, |if c then 0 else j.jAcc| ≤ f * dt := by
      intro c _
      split
      · simpa using hf0
      · exact hb
    exact this _ _
  · simp [maxForce] at hf
  · simp [maxForce] at hf

/-- One phase of a step, as seen by a joint. -/
inductive Spec.JointPhase (K : Type) where
  | preStep (a b : Body K)
  | iterate (a b : Body K)

def Spec.runPhase (M : Mth K) (inf dt : K) (jt : Joint K) : JointPhase K → Joint K
  | .preStep a b => (jt.preStep M inf a b dt).2.2
  | .iterate a b => (jt.applyImpulse M a b dt).2.2

/-- With a fixed time step the limit holds throughout, from a fresh joint on, with no proviso on anchors. -/
theorem C37_limit_always {M : Mth K} (hM : M.Lawful) (inf dt : K) (hdt : 0 ≤ dt) (phases : List (JointPhase K)) :
    ∀ jt : Joint K, LimitOk jt → RatchetOk jt → Respects M dt jt →
    Respects M dt (phases.foldl (runPhase M inf dt) jt) := by
  induction phases with
  | nil => intro jt _ _ h; exact h
  | cons p ps ih =>
    intro jt hl hr h
    cases p with
    | preStep a b =>
      have := preStep_fixed M inf dt jt a b
      exact ih _ (by unfold LimitOk; simp only [runPhase]; rw [this.1]; exact hl) (this.2.2 hr)
        (preStep_respects M inf dt hdt jt a b hl h)
    | iterate a b =>
      have := applyImpulse_fixed M dt jt a b
      exact ih _ (by unfold LimitOk; simp only [runPhase]; rw [this.1]; exact hl) (this.2.2 hr)
        (applyImpulse_respects hM dt hdt jt a b hl hr (Or.inr h))

/-- A slide joint whose anchors come to coincide below its minimum length keeps the impulse of an earlier, longer
step: the direction is the zero vector, so it is neither cleared nor clamped. -/
def exSlide : SlideJoint ℚ :=
  { maxForce := 1, errorBias := 1, maxBias := 1000, anchorA := ⟨0, 0⟩, anchorB := ⟨0, 0⟩, min := 1, max := 2,
    r1 := ⟨0, 0⟩, r2 := ⟨0, 0⟩, n := ⟨1, 0⟩, nMass := 1, jnAcc := -4, bias := 0 }

theorem exSlide_prepared : exSlide.preStep toyMth exBlock exBlock (1/2)
    = { exSlide with n := ⟨0, 0⟩, nMass := 1/2, bias := -1 } := by decide +kernel

theorem exSlide_stuck (n : Nat) :
    iterateJoint toyMth (1/2) (.slide (exSlide.preStep toyMth exBlock exBlock (1/2))) (fun _ => (exBlock, exBlock)) n
      = .slide { exSlide with n := ⟨0, 0⟩, nMass := 1/2, bias := -1 } := by
  induction n with
  | zero => rw [exSlide_prepared]; rfl
  | succ n ih =>
    simp only [iterateJoint, ih, Joint.applyImpulse, SlideJoint.applyImpulse]
    rfl

theorem C37_slide_coincident (n : Nat) :
    Respects toyMth 4 (.slide exSlide) ∧
    ¬ Respects toyMth (1/2) (iterateJoint toyMth (1/2)
      ((Joint.slide exSlide).preStep toyMth 1000000 exBlock exBlock (1/2)).2.2 (fun _ => (exBlock, exBlock)) n) := by
  constructor
  · intro f hf
    obtain rfl : exSlide.maxForce = f := by simpa [maxForce] using hf
    simp only [Joint.getImpulse, SlideJoint.getImpulse, fabs_eq]
    decide +kernel
  · intro h
    have h := h 1 (by simp only [Joint.preStep]; rw [exSlide_stuck]; simp [maxForce, exSlide])
    simp only [Joint.preStep] at h
    rw [exSlide_stuck] at h
    simp only [Joint.getImpulse, SlideJoint.getImpulse, fabs_eq] at h
    revert h
    decide +kernel

/-- The hypotheses of `C37_limit` for a slide joint with its anchors apart. -/
example : LimitOk (.slide exSlide) ∧ RatchetOk (.slide exSlide) ∧ AnchorsApart (.slide exSlide) exBlock exBall := by
  refine ⟨?_, trivial, ?_⟩
  · intro f hf
    obtain rfl : exSlide.maxForce = f := by simpa [maxForce] using hf
    decide +kernel
  · simp only [AnchorsApart]; decide +kernel

end Cm
