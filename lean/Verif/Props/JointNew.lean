import Verif.Model.JointNew
import Verif.Props.Joint
import Verif.Props.JointTarget
/-! # C88: new joints disturb nothing -/
set_option linter.unusedSectionVars false
set_option linter.unusedSimpArgs false
set_option linter.unusedVariables false

namespace Cm
open Spec
variable {K : Type} [Field K] [LinearOrder K] [IsStrictOrderedRing K]

namespace Spec
/-- The body does not move. -/
def Still (b : Body K) : Prop := b.v = V2.zero ∧ b.w = 0

/-- `d` is the distance of the two points. -/
def IsDist (d : K) (p q : V2 K) : Prop := 0 ≤ d ∧ d ^ 2 = dist2 p q

/-- The configuration of the bodies meets what the joint asks for, in world coordinates. -/
def Met (a b : Body K) : Joint K → Prop
  | .pin j => IsDist j.dist (b.localToWorld j.anchorB) (a.localToWorld j.anchorA)
  | .slide j => ∃ d, IsDist d (b.localToWorld j.anchorB) (a.localToWorld j.anchorA) ∧ j.min ≤ d ∧ d ≤ j.max
  | .pivot j => b.localToWorld j.anchorB = a.localToWorld j.anchorA
  | .groove j => ∃ t, 0 ≤ t ∧ t ≤ 1 ∧ b.localToWorld j.anchorB = a.localToWorld (j.grooveA.lerp j.grooveB t)
  | .gear j => b.angle * j.ratio - a.angle = j.phase
  | .ratchet j => (j.angle - (b.angle - a.angle)) * j.ratchet ≤ 0
  | .rotaryLimit j => j.min ≤ b.angle - a.angle ∧ b.angle - a.angle ≤ j.max
  | .motor j => j.rate = 0
  | .spring j => ∃ d, IsDist d (b.localToWorld j.anchorB) (a.localToWorld j.anchorA) ∧ j.forceFn d = 0
  | .rotarySpring j => j.torqueFn (a.angle - b.angle) = 0

/-- The joint has accumulated no impulse, asks for no correction, and its limits are not negative. -/
def Unloaded : Joint K → Prop
  | .pin j => j.jnAcc = 0 ∧ j.bias = 0 ∧ 0 ≤ j.maxForce ∧ 0 ≤ j.maxBias
  | .slide j => j.jnAcc = 0 ∧ j.bias = 0 ∧ 0 ≤ j.maxForce ∧ 0 ≤ j.maxBias
  | .pivot j => j.jAcc = V2.zero ∧ j.bias = V2.zero
  | .groove j => j.jAcc = V2.zero ∧ j.bias = V2.zero ∧ j.grooveN.x ^ 2 + j.grooveN.y ^ 2 = 1 ∧
      ∃ l, 0 ≤ l ∧ j.grooveB.x - j.grooveA.x = l * j.grooveN.y ∧ j.grooveB.y - j.grooveA.y = - (l * j.grooveN.x)
  | .gear j => j.jAcc = 0 ∧ j.bias = 0 ∧ 0 ≤ j.maxForce ∧ 0 ≤ j.maxBias
  | .ratchet j => j.jAcc = 0 ∧ j.bias = 0 ∧ 0 ≤ j.maxBias ∧ j.ratchet ≠ 0
  | .rotaryLimit j => j.jAcc = 0 ∧ j.bias = 0 ∧ 0 ≤ j.maxBias
  | .motor j => j.jAcc = 0 ∧ 0 ≤ j.maxForce
  | .spring j => j.targetVrn = 0
  | .rotarySpring j => j.targetWrn = 0

/-- What a step does with a joint. -/
inductive SolvePhase (K : Type) where
  | preStep
  | cached (dtCoef : K)
  | iterate

/-- The effect of a phase on the bodies and the joint. -/
def solvePhase (M : Mth K) (inf dt : K) (s : Body K × Body K × Joint K) : SolvePhase K → Body K × Body K × Joint K
  | .preStep => s.2.2.preStep M inf s.1 s.2.1 dt
  | .cached c => ((s.2.2.applyCached s.1 s.2.1 c).1, (s.2.2.applyCached s.1 s.2.1 c).2, s.2.2)
  | .iterate => s.2.2.applyImpulse M s.1 s.2.1 dt
end Spec

theorem impulses_zero (a b : Body K) (r1 r2 j : V2 K) (h : j = V2.zero) : applyImpulses a b r1 r2 j = (a, b) := by
  subst h
  simp [applyImpulses, V2.zero]

theorem spin_zero (a b : Body K) (c : K) : spin a b 0 c = (a, b) := by simp [spin]

theorem still_rel {a b : Body K} (ha : Still a) (hb : Still b) (r1 r2 : V2 K) : relativeVelocity a b r1 r2 = V2.zero := by
  simp [relativeVelocity, ha.1, ha.2, hb.1, hb.2, V2.zero, V2.add, V2.sub, V2.scale, V2.perp]

theorem clamp_zero {m : K} (h : 0 ≤ m) : clamp 0 (-m) m = 0 := by
  rw [clamp_eq _ _ _ (by linarith)]
  simp [h]

theorem clampMag_zero (M : Mth K) (m : K) : (V2.zero : V2 K).clampMag M m = V2.zero := by
  unfold V2.clampMag
  rw [if_neg]
  simp only [V2.dot, V2.zero, mul_zero, add_zero, gt_iff_lt, not_lt]
  exact mul_self_nonneg m

theorem placed_anchor {M : Mth K} {b : Body K} (h : Placed M b) (q : V2 K) : b.p.add (anchorOffset b q) = b.localToWorld q := by
  unfold anchorOffset Body.localToWorld
  rw [h]
  simp only [Body.mkTransform, Transform.transpose, Transform.applyVector, Transform.apply, V2.add, V2.sub]
  refine V2.ext ?_ ?_ <;> simp only [] <;> ring

theorem isDist_mag {M : Mth K} (hM : M.Lawful) {d : K} {p q : V2 K} (h : IsDist d p q) : (p.sub q).mag M = d := by
  have e : (p.sub q).lengthSq = d ^ 2 := by rw [h.2]; simp only [V2.lengthSq, V2.sub, V2.dot, dist2]; ring
  have hn : 0 ≤ (p.sub q).lengthSq := by rw [e]; positivity
  have h1 := hM.sqrt_nonneg _ hn
  have h2 := hM.sqrt_sq _ hn
  unfold V2.mag
  rw [e] at h1 h2 ⊢
  nlinarith [h.1, sq_nonneg (M.sqrt (d ^ 2) - d), sq_nonneg (M.sqrt (d ^ 2) + d), mul_self_eq_mul_self_iff.1 (h2.trans (sq d))]

theorem phase_pin {M : Mth K} (hM : M.Lawful) (inf : K) {dt : K} (hdt : 0 ≤ dt) {a b : Body K} (ha : Still a) (hb : Still b) (pa : Placed M a)
    (pb : Placed M b) (j : PinJoint K) (hm : Met a b (.pin j)) (hi : Unloaded (.pin j)) (p : SolvePhase K) :
    (solvePhase M inf dt (a, b, .pin j) p).1 = a ∧ (solvePhase M inf dt (a, b, .pin j) p).2.1 = b ∧
      Met a b (solvePhase M inf dt (a, b, .pin j) p).2.2 ∧ Unloaded (solvePhase M inf dt (a, b, .pin j) p).2.2 := by
  obtain ⟨h1, h2, h3, h4⟩ := hi
  cases p with
  | preStep =>
    refine ⟨rfl, rfl, hm, h1, ?_, h3, h4⟩
    show clamp _ _ _ = _
    have e : b.p.add ((anchorOffset b j.anchorB).sub (a.p.add (anchorOffset a j.anchorA))) =
        (b.localToWorld j.anchorB).sub (a.localToWorld j.anchorA) := by
      rw [← placed_anchor pa, ← placed_anchor pb]
      refine V2.ext ?_ ?_ <;> simp only [V2.add, V2.sub] <;> ring
    simp only [e, isDist_mag hM hm, sub_self, mul_zero, zero_div]
    exact clamp_zero h4
  | cached c =>
    have e : applyImpulses a b j.r1 j.r2 (j.n.scale (j.jnAcc * c)) = (a, b) := impulses_zero _ _ _ _ _ (by rw [h1]; simp [V2.scale, V2.zero])
    simp only [solvePhase, Joint.applyCached, PinJoint.applyCached, e]
    exact ⟨by trivial, by trivial, hm, h1, h2, h3, h4⟩
  | iterate =>
    have ev : normalRelativeVelocity a b j.r1 j.r2 j.n = 0 := by
      simp [normalRelativeVelocity, still_rel ha hb, V2.dot, V2.zero]
    have ej : clamp (j.jnAcc + (j.bias - 0) * j.nMass) (-(j.maxForce * dt)) (j.maxForce * dt) = 0 := by
      rw [h1, h2]; simp only [sub_zero, zero_mul, add_zero]; exact clamp_zero (mul_nonneg h3 hdt)
    have e : applyImpulses a b j.r1 j.r2 (j.n.scale (0 - j.jnAcc)) = (a, b) := impulses_zero _ _ _ _ _ (by rw [h1]; simp [V2.scale, V2.zero])
    simp only [solvePhase, Joint.applyImpulse, PinJoint.applyImpulse, ev, ej, e]
    exact ⟨by trivial, by trivial, hm, rfl, h2, h3, h4⟩

theorem phase_slide {M : Mth K} (hM : M.Lawful) (inf : K) {dt : K} (hdt : 0 ≤ dt) {a b : Body K} (ha : Still a) (hb : Still b) (pa : Placed M a)
    (pb : Placed M b) (j : SlideJoint K) (hm : Met a b (.slide j)) (hi : Unloaded (.slide j)) (p : SolvePhase K) :
    (solvePhase M inf dt (a, b, .slide j) p).1 = a ∧ (solvePhase M inf dt (a, b, .slide j) p).2.1 = b ∧
      Met a b (solvePhase M inf dt (a, b, .slide j) p).2.2 ∧ Unloaded (solvePhase M inf dt (a, b, .slide j) p).2.2 := by
  obtain ⟨h1, h2, h3, h4⟩ := hi
  cases p with
  | preStep =>
    obtain ⟨d, hd, hlo, hhi⟩ := hm
    have e : (b.p.add (anchorOffset b j.anchorB)).sub (a.p.add (anchorOffset a j.anchorA)) =
        (b.localToWorld j.anchorB).sub (a.localToWorld j.anchorA) := by
      rw [← placed_anchor pa, ← placed_anchor pb]
    simp only [solvePhase, Joint.preStep, SlideJoint.preStep, e, isDist_mag hM hd, gt_iff_lt, if_neg (not_lt.2 hlo), if_neg (not_lt.2 hhi)]
    refine ⟨trivial, trivial, ⟨d, hd, hlo, hhi⟩, rfl, ?_, h3, h4⟩
    simp only [mul_zero, zero_div]
    exact clamp_zero h4
  | cached c =>
    have e : applyImpulses a b j.r1 j.r2 (j.n.scale (j.jnAcc * c)) = (a, b) := impulses_zero _ _ _ _ _ (by rw [h1]; simp [V2.scale, V2.zero])
    simp only [solvePhase, Joint.applyCached, SlideJoint.applyCached, e]
    exact ⟨by trivial, by trivial, hm, h1, h2, h3, h4⟩
  | iterate =>
    have ev : (relativeVelocity a b j.r1 j.r2).dot j.n = 0 := by
      simp [still_rel ha hb, V2.dot, V2.zero]
    have ej : clamp (j.jnAcc + (j.bias - 0) * j.nMass) (-j.maxForce * dt) 0 = 0 := by
      rw [h1, h2]; simp only [sub_zero, zero_mul, add_zero]
      have := mul_nonneg h3 hdt
      rw [clamp_eq _ _ _ (by linarith)]
      simpa using this
    have e : applyImpulses a b j.r1 j.r2 (j.n.scale (0 - j.jnAcc)) = (a, b) := impulses_zero _ _ _ _ _ (by rw [h1]; simp [V2.scale, V2.zero])
    simp only [solvePhase, Joint.applyImpulse, SlideJoint.applyImpulse]
    split
    · exact ⟨by trivial, by trivial, hm, h1, h2, h3, h4⟩
    · simp only [ev, ej, e]
      exact ⟨by trivial, by trivial, hm, rfl, h2, h3, h4⟩

theorem phase_pivot {M : Mth K} (hM : M.Lawful) (inf : K) {dt : K} (hdt : 0 ≤ dt) {a b : Body K} (ha : Still a) (hb : Still b) (pa : Placed M a)
    (pb : Placed M b) (j : PivotJoint K) (hm : Met a b (.pivot j)) (hi : Unloaded (.pivot j)) (p : SolvePhase K) :
    (solvePhase M inf dt (a, b, .pivot j) p).1 = a ∧ (solvePhase M inf dt (a, b, .pivot j) p).2.1 = b ∧
      Met a b (solvePhase M inf dt (a, b, .pivot j) p).2.2 ∧ Unloaded (solvePhase M inf dt (a, b, .pivot j) p).2.2 := by
  obtain ⟨h1, h2⟩ := hi
  have hm' : b.localToWorld j.anchorB = a.localToWorld j.anchorA := hm
  cases p with
  | preStep =>
    have e : (b.p.add (anchorOffset b j.anchorB)).sub (a.p.add (anchorOffset a j.anchorA)) = V2.zero := by
      rw [placed_anchor pa, placed_anchor pb, hm']; simp [V2.sub, V2.zero]
    refine ⟨rfl, rfl, hm, h1, ?_⟩
    show V2.clampMag _ _ _ = _
    rw [e]
    have : (V2.zero : V2 K).scale (-(biasCoef M j.errorBias dt) / dt) = V2.zero := by simp [V2.scale, V2.zero]
    rw [this]
    exact clampMag_zero M _
  | cached c =>
    have e : applyImpulses a b j.r1 j.r2 (j.jAcc.scale c) = (a, b) := impulses_zero _ _ _ _ _ (by rw [h1]; simp [V2.scale, V2.zero])
    simp only [solvePhase, Joint.applyCached, PivotJoint.applyCached, e]
    exact ⟨by trivial, by trivial, hm, h1, h2⟩
  | iterate =>
    have ej : (j.jAcc.add (j.k.transform (j.bias.sub (relativeVelocity a b j.r1 j.r2)))).clampMag M (j.maxForce * dt) = V2.zero := by
      rw [still_rel ha hb, h1, h2]
      have : (V2.zero : V2 K).add (j.k.transform (V2.zero.sub V2.zero)) = V2.zero := by
        simp [V2.add, V2.sub, V2.zero, Mat2x2.transform]
      rw [this]; exact clampMag_zero M _
    have e : applyImpulses a b j.r1 j.r2 (V2.zero.sub j.jAcc) = (a, b) := impulses_zero _ _ _ _ _ (by rw [h1]; simp [V2.sub, V2.zero])
    simp only [solvePhase, Joint.applyImpulse, PivotJoint.applyImpulse, ej, e]
    exact ⟨by trivial, by trivial, hm, rfl, h2⟩

theorem phase_groove {M : Mth K} (hM : M.Lawful) (inf : K) {dt : K} (hdt : 0 ≤ dt) {a b : Body K} (ha : Still a) (hb : Still b) (pa : Placed M a)
    (pb : Placed M b) (j : GrooveJoint K) (hm : Met a b (.groove j)) (hi : Unloaded (.groove j)) (p : SolvePhase K) :
    (solvePhase M inf dt (a, b, .groove j) p).1 = a ∧ (solvePhase M inf dt (a, b, .groove j) p).2.1 = b ∧
      Met a b (solvePhase M inf dt (a, b, .groove j) p).2.2 ∧ Unloaded (solvePhase M inf dt (a, b, .groove j) p).2.2 := by
  obtain ⟨h1, h2, h3, l, h4, h5, h6⟩ := hi
  cases p with
  | preStep =>
    refine ⟨rfl, rfl, hm, h1, ?_, h3, l, h4, h5, h6⟩
    obtain ⟨t, t0, t1, ht⟩ := hm
    have e2 : b.p.add (anchorOffset b j.anchorB) = a.localToWorld (j.grooveA.lerp j.grooveB t) := by rw [placed_anchor pb, ht]
    set n := a.tr.applyVector j.grooveN with hnd
    set ta := a.tr.apply j.grooveA with hta
    set tb := a.tr.apply j.grooveB with htb
    have hcs := hM.cos_sin a.angle
    have hn1 : n.x ^ 2 + n.y ^ 2 = 1 := by
      rw [hnd, placed_applyVector M a pa]
      simp only [turn]
      linear_combination (j.grooveN.x ^ 2 + j.grooveN.y ^ 2) * hcs + h3
    have htn : tb.x - ta.x = l * n.y ∧ tb.y - ta.y = -(l * n.x) := by
      rw [hnd, placed_applyVector M a pa, hta, htb, pa]
      simp only [Body.mkTransform, Transform.transpose, Transform.apply, turn]
      constructor
      · linear_combination M.cos a.angle * h5 - M.sin a.angle * h6
      · linear_combination M.sin a.angle * h5 + M.cos a.angle * h6
    set P := a.localToWorld (j.grooveA.lerp j.grooveB t) with hP
    have hPx : P.x = ta.x + t * (l * n.y) ∧ P.y = ta.y - t * (l * n.x) := by
      rw [← htn.1, hP, show l * n.x = -(tb.y - ta.y) by rw [htn.2]; ring, hta, htb]
      simp only [Body.localToWorld, Transform.apply, V2.lerp, V2.add, V2.scale]
      constructor <;> ring
    have c0 : P.cross n - ta.cross n = t * l := by
      simp only [V2.cross, hPx.1, hPx.2]
      linear_combination t * l * hn1
    have c1 : tb.cross n - P.cross n = (1 - t) * l := by
      simp only [V2.cross, hPx.1, hPx.2]
      linear_combination n.y * htn.1 - n.x * htn.2 + (1 - t) * l * hn1
    have z : ∀ r, r = P.sub a.p → P.sub (a.p.add r) = V2.zero := by
      rintro r rfl; simp [V2.sub, V2.add, V2.zero]
    have zero : ∀ v : V2 K, v = V2.zero → (v.scale (-(biasCoef M j.errorBias dt) / dt)).clampMag M j.maxBias = V2.zero := by
      rintro v rfl
      have : (V2.zero : V2 K).scale (-(biasCoef M j.errorBias dt) / dt) = V2.zero := by simp [V2.scale, V2.zero]
      rw [this]; exact clampMag_zero M _
    simp only [GrooveJoint.preStep, e2]
    apply zero
    apply z
    rw [← hnd, ← hta, ← htb]
    split_ifs with g1 g2
    · have : t * l = 0 := le_antisymm (by linarith) (mul_nonneg t0 h4)
      show ta.sub a.p = _
      congr 1
      refine V2.ext ?_ ?_
      · rw [hPx.1]; linear_combination (-n.y) * this
      · rw [hPx.2]; linear_combination n.x * this
    · have : (1 - t) * l = 0 := le_antisymm (by linarith [show tb.cross n ≤ P.cross n from g2]) (mul_nonneg (by linarith) h4)
      show tb.sub a.p = _
      congr 1
      refine V2.ext ?_ ?_
      · rw [hPx.1]; linear_combination htn.1 + n.y * this
      · rw [hPx.2]; linear_combination htn.2 - n.x * this
    · show V2.sub _ a.p = _
      congr 1
      simp only [V2.add, V2.scale, V2.perp, V2.cross, V2.dot]
      refine V2.ext ?_ ?_ <;> simp only [hPx.1, hPx.2]
      · linear_combination (ta.x + t * l * n.y) * hn1
      · linear_combination (ta.y - t * l * n.x) * hn1
  | cached c =>
    have e : applyImpulses a b j.r1 j.r2 (j.jAcc.scale c) = (a, b) := impulses_zero _ _ _ _ _ (by rw [h1]; simp [V2.scale, V2.zero])
    simp only [solvePhase, Joint.applyCached, GrooveJoint.applyCached, e]
    exact ⟨by trivial, by trivial, hm, h1, h2, h3, l, h4, h5, h6⟩
  | iterate =>
    have ej : j.grooveConstrain M (j.jAcc.add (j.k.transform (j.bias.sub (relativeVelocity a b j.r1 j.r2)))) dt = V2.zero := by
      rw [still_rel ha hb, h1, h2]
      have : (V2.zero : V2 K).add (j.k.transform (V2.zero.sub V2.zero)) = V2.zero := by
        simp [V2.add, V2.sub, V2.zero, Mat2x2.transform]
      rw [this]
      unfold GrooveJoint.grooveConstrain
      have hp : (V2.zero : V2 K).project j.grooveTn = V2.zero := by simp [V2.project, V2.dot, V2.scale, V2.zero]
      simp only [hp, ite_self]
      exact clampMag_zero M _
    have e : applyImpulses a b j.r1 j.r2 (V2.zero.sub j.jAcc) = (a, b) := impulses_zero _ _ _ _ _ (by rw [h1]; simp [V2.sub, V2.zero])
    simp only [solvePhase, Joint.applyImpulse, GrooveJoint.applyImpulse, ej, e]
    exact ⟨by trivial, by trivial, hm, rfl, h2, h3, l, h4, h5, h6⟩

theorem phase_other {M : Mth K} (hM : M.Lawful) (inf : K) {dt : K} (hdt : 0 ≤ dt) {a b : Body K} (ha : Still a) (hb : Still b) (pa : Placed M a)
    (pb : Placed M b) (jt : Joint K) (hm : Met a b jt) (hi : Unloaded jt) (p : SolvePhase K) :
    (solvePhase M inf dt (a, b, jt) p).1 = a ∧ (solvePhase M inf dt (a, b, jt) p).2.1 = b ∧
      Met a b (solvePhase M inf dt (a, b, jt) p).2.2 ∧ Unloaded (solvePhase M inf dt (a, b, jt) p).2.2 := by
  cases jt with
  | pin j => exact phase_pin hM inf hdt ha hb pa pb j hm hi p
  | slide j => exact phase_slide hM inf hdt ha hb pa pb j hm hi p
  | pivot j => exact phase_pivot hM inf hdt ha hb pa pb j hm hi p
  | groove j => exact phase_groove hM inf hdt ha hb pa pb j hm hi p
  | gear j =>
    obtain ⟨h1, h2, h3, h4⟩ := hi
    have hm' : b.angle * j.ratio - a.angle = j.phase := hm
    cases p with
    | preStep =>
      refine ⟨rfl, rfl, hm, h1, ?_, h3, h4⟩
      show clamp _ _ _ = _
      rw [hm', sub_self, mul_zero, zero_div]
      exact clamp_zero h4
    | cached c =>
      simp only [solvePhase, Joint.applyCached, GearJoint.applyCached, h1, zero_mul, spin_zero]
      exact ⟨by trivial, by trivial, hm, h1, h2, h3, h4⟩
    | iterate =>
      have ej : clamp (j.jAcc + (j.bias - (b.w * j.ratio - a.w)) * j.iSum) (-(j.maxForce * dt)) (j.maxForce * dt) = 0 := by
        rw [h1, h2, ha.2, hb.2]; simp only [zero_mul, sub_zero, add_zero]; exact clamp_zero (mul_nonneg h3 hdt)
      simp only [solvePhase, Joint.applyImpulse, GearJoint.applyImpulse, ej]
      rw [h1, sub_zero, spin_zero]
      exact ⟨by trivial, by trivial, hm, rfl, h2, h3, h4⟩
  | ratchet j =>
    obtain ⟨h1, h2, h3, h4⟩ := hi
    have hm' : (j.angle - (b.angle - a.angle)) * j.ratchet ≤ 0 := hm
    cases p with
    | preStep =>
      have hb0 : clamp (-(biasCoef M j.errorBias dt) * 0 / dt) (-j.maxBias) j.maxBias = 0 := by
        rw [mul_zero, zero_div]; exact clamp_zero h3
      simp only [solvePhase, Joint.preStep, RatchetJoint.preStep, gt_iff_lt, if_neg (not_lt.2 hm'), hb0, if_true]
      refine ⟨by trivial, by trivial, ?_, rfl, rfl, h3, h4⟩
      show (M.floor ((b.angle - a.angle - j.phase) / j.ratchet) * j.ratchet + j.phase - (b.angle - a.angle)) * j.ratchet ≤ 0
      set x := (b.angle - a.angle - j.phase) / j.ratchet with hx
      have : b.angle - a.angle = x * j.ratchet + j.phase := by rw [hx]; field_simp; ring
      rw [this]
      have := hM.floor_le x
      nlinarith [mul_self_nonneg j.ratchet]
    | cached c =>
      simp only [solvePhase, Joint.applyCached, RatchetJoint.applyCached, h1, zero_mul, spin_zero]
      exact ⟨by trivial, by trivial, hm, h1, h2, h3, h4⟩
    | iterate =>
      simp only [solvePhase, Joint.applyImpulse, RatchetJoint.applyImpulse, if_pos h2]
      exact ⟨by trivial, by trivial, hm, h1, h2, h3, h4⟩
  | rotaryLimit j =>
    obtain ⟨h1, h2, h3⟩ := hi
    obtain ⟨g1, g2⟩ := hm
    cases p with
    | preStep =>
      have hb0 : clamp (-(biasCoef M j.errorBias dt) * 0 / dt) (-j.maxBias) j.maxBias = 0 := by
        rw [mul_zero, zero_div]; exact clamp_zero h3
      simp only [solvePhase, Joint.preStep, RotaryLimitJoint.preStep, gt_iff_lt, if_neg (not_lt.2 g1), if_neg (not_lt.2 g2), hb0, if_true]
      exact ⟨by trivial, by trivial, ⟨g1, g2⟩, rfl, rfl, h3⟩
    | cached c =>
      simp only [solvePhase, Joint.applyCached, RotaryLimitJoint.applyCached, h1, zero_mul, spin_zero]
      exact ⟨by trivial, by trivial, ⟨g1, g2⟩, h1, h2, h3⟩
    | iterate =>
      simp only [solvePhase, Joint.applyImpulse, RotaryLimitJoint.applyImpulse, if_pos h2]
      exact ⟨by trivial, by trivial, ⟨g1, g2⟩, h1, h2, h3⟩
  | motor j =>
    obtain ⟨h1, h3⟩ := hi
    have hm' : j.rate = 0 := hm
    cases p with
    | preStep => exact ⟨rfl, rfl, hm, h1, h3⟩
    | cached c =>
      simp only [solvePhase, Joint.applyCached, SimpleMotor.applyCached, h1, zero_mul, spin_zero]
      exact ⟨by trivial, by trivial, hm, h1, h3⟩
    | iterate =>
      have ej : clamp (j.jAcc + -(b.w - a.w + j.rate) * j.iSum) (-(j.maxForce * dt)) (j.maxForce * dt) = 0 := by
        rw [h1, hm', ha.2, hb.2]; simp only [sub_zero, add_zero, neg_zero, zero_mul]; exact clamp_zero (mul_nonneg h3 hdt)
      simp only [solvePhase, Joint.applyImpulse, SimpleMotor.applyImpulse, ej]
      rw [h1, sub_zero, spin_zero]
      exact ⟨by trivial, by trivial, hm, rfl, h3⟩
  | spring j =>
    have h1 : j.targetVrn = 0 := hi
    cases p with
    | preStep =>
      obtain ⟨d, hd, hf⟩ := hm
      have e : (b.p.add (anchorOffset b j.anchorB)).sub (a.p.add (anchorOffset a j.anchorA)) =
          (b.localToWorld j.anchorB).sub (a.localToWorld j.anchorA) := by
        rw [← placed_anchor pa, ← placed_anchor pb]
      have ei : ∀ r1 r2 n : V2 K, applyImpulses a b r1 r2 (n.scale (0 * dt)) = (a, b) := fun r1 r2 n =>
        impulses_zero _ _ _ _ _ (by simp [V2.scale, V2.zero])
      simp only [solvePhase, Joint.preStep, DampedSpring.preStep, e, isDist_mag hM hd, hf, ei]
      exact ⟨by trivial, by trivial, ⟨d, hd, hf⟩, rfl⟩
    | cached c => exact ⟨rfl, rfl, hm, h1⟩
    | iterate =>
      have ev : normalRelativeVelocity a b j.r1 j.r2 j.n = 0 := by
        simp [normalRelativeVelocity, still_rel ha hb, V2.dot, V2.zero]
      have ei : applyImpulses a b j.r1 j.r2 (j.n.scale ((0 - 0) * j.vCoef * j.nMass)) = (a, b) :=
        impulses_zero _ _ _ _ _ (by simp [V2.scale, V2.zero])
      simp only [solvePhase, Joint.applyImpulse, DampedSpring.applyImpulse, ev, h1, ei]
      exact ⟨by trivial, by trivial, hm, by simp [Unloaded]⟩
  | rotarySpring j =>
    have h1 : j.targetWrn = 0 := hi
    have hm' : j.torqueFn (a.angle - b.angle) = 0 := hm
    cases p with
    | preStep =>
      simp only [solvePhase, Joint.preStep, DampedRotarySpring.preStep, hm', zero_mul, sub_zero, add_zero]
      exact ⟨by trivial, by trivial, hm, rfl⟩
    | cached c => exact ⟨rfl, rfl, hm, h1⟩
    | iterate =>
      simp only [solvePhase, Joint.applyImpulse, DampedRotarySpring.applyImpulse, h1, ha.2, hb.2, sub_self, zero_mul, add_zero, sub_zero]
      refine ⟨?_, ?_, hm, by simp [Unloaded]⟩
      · have : a = { a with w := 0 } := by rw [← ha.2]
        exact this.symm
      · have : b = { b with w := 0 } := by rw [← hb.2]
        exact this.symm

/-- **C88** A joint without accumulated impulse whose demand the two bodies at rest already meet leaves them alone, whatever is done with it and
however often. -/
theorem C88_rest {M : Mth K} (hM : M.Lawful) (inf : K) {dt : K} (hdt : 0 ≤ dt) {a b : Body K} (ha : Still a) (hb : Still b) (pa : Placed M a)
    (pb : Placed M b) (ps : List (SolvePhase K)) : ∀ jt : Joint K, Met a b jt → Unloaded jt →
    (ps.foldl (solvePhase M inf dt) (a, b, jt)).1 = a ∧ (ps.foldl (solvePhase M inf dt) (a, b, jt)).2.1 = b := by
  induction ps with
  | nil => intro jt _ _; exact ⟨rfl, rfl⟩
  | cons p ps ih =>
    intro jt hm hi
    obtain ⟨e1, e2, e3, e4⟩ := phase_other hM inf hdt ha hb pa pb jt hm hi p
    have : solvePhase M inf dt (a, b, jt) p = (a, b, (solvePhase M inf dt (a, b, jt) p).2.2) := by
      rw [Prod.ext_iff, Prod.ext_iff]; exact ⟨e1, e2, rfl⟩
    rw [List.foldl_cons, this]
    exact ih _ e3 e4

theorem mag_isDist {M : Mth K} (hM : M.Lawful) (p q : V2 K) : IsDist ((p.sub q).mag M) p q := by
  have hn : 0 ≤ (p.sub q).lengthSq := by simp only [V2.lengthSq, V2.dot]; nlinarith [mul_self_nonneg (p.sub q).x, mul_self_nonneg (p.sub q).y]
  refine ⟨hM.sqrt_nonneg _ hn, ?_⟩
  rw [V2.mag, sq, hM.sqrt_sq _ hn]
  simp only [V2.lengthSq, V2.sub, V2.dot, dist2]; ring

/-- **C88** A new pin joint holds the bodies at the distance they have. -/
theorem C88_pin {M : Mth K} (hM : M.Lawful) {inf : K} (hinf : 0 ≤ inf) (a b : Body K) (p q : V2 K) :
    Met a b (.pin (PinJoint.new M inf a b p q)) ∧ Unloaded (.pin (PinJoint.new M inf a b p q)) :=
  ⟨mag_isDist hM _ _, rfl, rfl, hinf, hinf⟩

/-- **C88** A new pivot joint holds together the points of the bodies that are at the pivot. -/
theorem C88_pivot {M : Mth K} (hM : M.Lawful) (inf : K) (a b : Body K) (pa : Reached M inf a) (pb : Reached M inf b) (p : V2 K) :
    Met a b (.pivot (PivotJoint.new M inf a b p)) ∧ Unloaded (.pivot (PivotJoint.new M inf a b p)) ∧
    a.localToWorld (PivotJoint.new M inf a b p).anchorA = p := by
  have ea := (C33_conversions M hM inf a pa p p).2.1
  have eb := (C33_conversions M hM inf b pb p p).2.1
  exact ⟨eb.trans ea.symm, ⟨rfl, rfl⟩, ea⟩

/-- **C88** The normal of a new groove joint is the unit vector a quarter turn from the groove; the joint is at rest if the anchor lies on the
groove. -/
theorem C88_groove {M : Mth K} (hM : M.Lawful) (inf : K) (p q r : V2 K) (h : p ≠ q) : Unloaded (.groove (GrooveJoint.new M inf p q r)) := by
  have hpos : 0 < (q.sub p).lengthSq := by
    have : 0 ≤ (q.sub p).lengthSq := by simp only [V2.lengthSq, V2.dot]; nlinarith [mul_self_nonneg (q.sub p).x, mul_self_nonneg (q.sub p).y]
    refine lt_of_le_of_ne this (fun e => h ?_)
    simp only [V2.lengthSq, V2.dot, V2.sub] at e
    have hx : q.x - p.x = 0 := by nlinarith [mul_self_nonneg (q.x - p.x), mul_self_nonneg (q.y - p.y)]
    have hy : q.y - p.y = 0 := by nlinarith [mul_self_nonneg (q.x - p.x), mul_self_nonneg (q.y - p.y)]
    exact V2.ext (by linarith) (by linarith)
  have h1 := hM.sqrt_nonneg _ hpos.le
  have h2 := hM.sqrt_sq _ hpos.le
  have hm : (q.sub p).mag M = M.sqrt (q.sub p).lengthSq := rfl
  set m := M.sqrt (q.sub p).lengthSq
  have hm0 : 0 < m := lt_of_le_of_ne h1 (fun e => by rw [← e, mul_zero] at h2; exact hpos.ne h2)
  refine ⟨rfl, rfl, ?_, m, h1, ?_, ?_⟩
  · simp only [GrooveJoint.new, V2.unit, V2.perp, V2.scale, hm]
    have e : m * m = (q.x - p.x) * (q.x - p.x) + (q.y - p.y) * (q.y - p.y) := h2
    simp only [V2.sub]
    field_simp
    linear_combination -e
  · simp only [GrooveJoint.new, V2.unit, V2.perp, V2.scale, hm]
    simp only [V2.sub]
    field_simp
  · simp only [GrooveJoint.new, V2.unit, V2.perp, V2.scale, hm]
    simp only [V2.sub]
    field_simp

/-- **C88** The other new joints hold no impulse; a new ratchet is at rest as built. -/
theorem C88_others {M : Mth K} {inf : K} (hinf : 0 ≤ inf) (a b : Body K) :
    (∀ p q lo hi, Unloaded (.slide (SlideJoint.new M inf p q lo hi) : Joint K)) ∧
    (∀ p q, Unloaded (.pivot (PivotJoint.new2 M inf p q) : Joint K)) ∧
    (∀ ph r, Unloaded (.gear (GearJoint.new (JointCfg.new M inf) ph r) : Joint K)) ∧
    (∀ ph r, r ≠ 0 → Unloaded (.ratchet (RatchetJoint.new M inf a b ph r)) ∧ Met a b (.ratchet (RatchetJoint.new M inf a b ph r))) ∧
    (∀ lo hi, Unloaded (.rotaryLimit (RotaryLimitJoint.new M inf lo hi) : Joint K)) ∧
    (∀ r, Unloaded (.motor (SimpleMotor.new M inf r) : Joint K)) ∧
    (∀ p q l s d, Unloaded (.spring (DampedSpring.new p q l s d) : Joint K)) ∧
    (∀ l s d, Unloaded (.rotarySpring (DampedRotarySpring.new l s d) : Joint K)) :=
  ⟨fun _ _ _ _ => ⟨rfl, rfl, hinf, hinf⟩, fun _ _ => ⟨rfl, rfl⟩, fun _ _ => ⟨rfl, rfl, hinf, hinf⟩,
    fun _ _ hr => ⟨⟨rfl, rfl, hinf, hr⟩, by simp [Met, RatchetJoint.new]⟩, fun _ _ => ⟨rfl, rfl, hinf⟩, fun _ => ⟨rfl, hinf⟩,
    fun _ _ _ _ _ => rfl, fun _ _ _ => rfl⟩

/-- **C88** New springs push exactly when they are off their rest length or angle, if stiff. -/
theorem C88_springs (a b : Body K) (p q : V2 K) (l s d : K) (hs : s ≠ 0) :
    (Met a b (.spring (DampedSpring.new p q l s d)) ↔ IsDist l (b.localToWorld q) (a.localToWorld p)) ∧
    (Met a b (.rotarySpring (DampedRotarySpring.new l s d)) ↔ a.angle - b.angle = l) := by
  constructor
  · constructor
    · rintro ⟨x, hx, hf⟩
      have hf : (l - x) * s = 0 := hf
      have : l = x := by rcases mul_eq_zero.1 hf with h | h; exact sub_eq_zero.1 h; exact absurd h hs
      rw [this]; exact hx
    · intro h
      exact ⟨l, h, by simp [DampedSpring.new, DampedSpring.defaultForce]⟩
  · show (a.angle - b.angle - l) * s = 0 ↔ _
    rw [mul_eq_zero, sub_eq_zero]; simp [hs]

/-- **C88** A new gear joint, prepared for bodies that meet its phase, makes one iteration impose the ratio on the angular velocities, unless it
runs into its force limit. -/
theorem C88_gear (M : Mth K) (inf dt : K) (hinf : 0 ≤ inf) (hdt : 0 < dt) (ph ratio : K) (hr : 0 < ratio) (a b : Body K)
    (hm : b.angle * ratio - a.angle = ph) (ha : 0 ≤ a.iInv) (hb : 0 ≤ b.iInv) (hab : a.iInv ≠ 0 ∨ b.iInv ≠ 0) :
    let j := (GearJoint.new (JointCfg.new M inf) ph ratio).preStep M a b dt
    let s := j.applyImpulse a b dt
    |s.2.2.jAcc| < inf * dt → s.2.1.w * ratio = s.1.w := by
  intro j s hlim
  have hbias : j.bias = 0 := by
    show clamp _ _ _ = _
    have : b.angle * ratio - a.angle - ph = 0 := by rw [hm, sub_self]
    simp only [GearJoint.new]
    rw [this, mul_zero, zero_div]
    exact clamp_zero hinf
  set k := a.iInv * (1 / ratio) + ratio * b.iInv with hk
  have hk0 : k ≠ 0 := by
    have h1 : 0 ≤ a.iInv * (1 / ratio) := mul_nonneg ha (one_div_nonneg.2 hr.le)
    have h2 : 0 ≤ ratio * b.iInv := mul_nonneg hr.le hb
    intro h
    rcases hab with h' | h'
    · have : 0 < a.iInv * (1 / ratio) := mul_pos (lt_of_le_of_ne ha h'.symm) (one_div_pos.2 hr)
      linarith
    · have : 0 < ratio * b.iInv := mul_pos hr (lt_of_le_of_ne hb h'.symm)
      linarith
  have hj : s.2.2.jAcc = clamp (0 + (j.bias - (b.w * ratio - a.w)) * (1 / k)) (-(inf * dt)) (inf * dt) := rfl
  have hle : 0 ≤ inf * dt := mul_nonneg hinf hdt.le
  have hin := clamp_inside (0 + (j.bias - (b.w * ratio - a.w)) * (1 / k)) (-(inf * dt)) (inf * dt) (by linarith)
    (by rw [← hj]; exact (abs_lt.1 hlim).1) (by rw [← hj]; exact (abs_lt.1 hlim).2)
  rw [← hj, hbias] at hin
  have e1 : s.1.w = a.w - (s.2.2.jAcc - 0) * a.iInv * (1 / ratio) := rfl
  have e2 : s.2.1.w = b.w + (s.2.2.jAcc - 0) * b.iInv := rfl
  have hkk : 1 / k * k = 1 := by field_simp
  rw [e1, e2, hin]
  rw [hk] at hkk ⊢
  linear_combination (-(b.w * ratio - a.w)) * hkk

/-- **C88** The impulses of a new gear joint do no work on motions that keep the ratio: what spin one body loses the other gains times the
ratio. -/
theorem C88_gear_workless (M : Mth K) (inf dt : K) (ph ratio : K) (hr : ratio ≠ 0) (a b : Body K) (ha : FiniteMoment a) (hb : FiniteMoment b) :
    let s := ((GearJoint.new (JointCfg.new M inf) ph ratio).preStep M a b dt).applyImpulse a b dt
    b.i * (s.2.1.w - b.w) = - (ratio * (a.i * (s.1.w - a.w))) ∧ s.2.2.ratio = ratio ∧
    ∀ w, (a.i * (s.1.w - a.w)) * (ratio * w) + (b.i * (s.2.1.w - b.w)) * w = 0 := by
  intro s
  have e1 : s.1.w = a.w - (s.2.2.jAcc - 0) * a.iInv * (1 / ratio) := rfl
  have e2 : s.2.1.w = b.w + (s.2.2.jAcc - 0) * b.iInv := rfl
  simp only [FiniteMoment] at ha hb
  have h1 : b.i * (s.2.1.w - b.w) = s.2.2.jAcc := by rw [e2]; linear_combination s.2.2.jAcc * hb
  have h2 : ratio * (a.i * (s.1.w - a.w)) = - s.2.2.jAcc := by
    have hrr : ratio * (1 / ratio) = 1 := by field_simp
    rw [e1]; linear_combination (-(s.2.2.jAcc * (1 / ratio) * ratio)) * ha - s.2.2.jAcc * hrr
  exact ⟨by rw [h1, h2]; ring, rfl, fun w => by rw [h1]; linear_combination w * h2⟩

/-! ## Examples: two bodies at rest three apart, one of them off its centre of gravity -/

noncomputable def exHeldA : Body ℝ := { Body.new realMth 1 1 with cog := ⟨1, 0⟩, p := ⟨1, 0⟩ }
noncomputable def exHeldB : Body ℝ := { Body.new realMth 1 1 with p := ⟨3, 0⟩, tr := Body.mkTransform realMth V2.zero ⟨3, 0⟩ 0 }

example : Still exHeldA ∧ Still exHeldB ∧ Placed realMth exHeldA ∧ Placed realMth exHeldB ∧
    exHeldA.localToWorld ⟨0, 0⟩ = ⟨0, 0⟩ ∧ exHeldB.localToWorld ⟨0, 4⟩ = ⟨3, 4⟩ ∧
    Met exHeldA exHeldB (.pin { PinJoint.new realMth 1000 exHeldA exHeldB ⟨0, 0⟩ ⟨0, 4⟩ with dist := 5 }) ∧
    Met exHeldA exHeldB (.groove (GrooveJoint.new realMth 1000 ⟨1, 0⟩ ⟨9, 0⟩ ⟨0, 0⟩)) ∧
    ¬ Met exHeldA exHeldB (.groove (GrooveJoint.new realMth 1000 ⟨4, 0⟩ ⟨9, 0⟩ ⟨0, 0⟩)) := by
  have e1 : ∀ q, exHeldA.localToWorld q = q := by
    intro q
    simp [exHeldA, Body.localToWorld, Body.new, Body.setAngle, Body.setTransform, Body.mkTransform, Transform.transpose, Transform.apply,
      Body.setMass, Body.setMoment, Body.blank, V2.zero, realMth]
  have e2 : ∀ q, exHeldB.localToWorld q = ⟨q.x + 3, q.y⟩ := by
    intro q
    simp [exHeldB, Body.localToWorld, Body.new, Body.setAngle, Body.setTransform, Body.mkTransform, Transform.transpose, Transform.apply,
      Body.setMass, Body.setMoment, Body.blank, V2.zero, realMth]
  refine ⟨⟨rfl, rfl⟩, ⟨rfl, rfl⟩, ?_, rfl, e1 _, by rw [e2]; norm_num, ?_, ?_, ?_⟩
  · simp [Placed, exHeldA, Body.new, Body.setAngle, Body.setTransform, Body.mkTransform, Body.setMass, Body.setMoment, Body.blank, V2.zero, realMth]
  · refine ⟨by norm_num, ?_⟩
    rw [e1, e2]
    norm_num [PinJoint.new, dist2]
  · refine ⟨1/4, by norm_num, by norm_num, ?_⟩
    rw [e1, e2]
    norm_num [GrooveJoint.new, V2.lerp, V2.add, V2.scale]
  · rintro ⟨t, h0, h1, h⟩
    rw [e1, e2] at h
    have := congrArg V2.x h
    norm_num [GrooveJoint.new, V2.lerp, V2.add, V2.scale] at this
    nlinarith

end Cm
