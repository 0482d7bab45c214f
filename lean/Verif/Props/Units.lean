import Verif.Props.Frame
import Verif.Props.JointTarget
/-! # C99: units of measure and handedness do not matter -/
set_option linter.unusedSectionVars false
set_option linter.unusedSimpArgs false
set_option linter.unusedVariables false

namespace Cm
open Spec
variable {K : Type} [Field K] [LinearOrder K] [IsStrictOrderedRing K]

namespace Spec
/-- Other units: numbers for lengths, masses and times are to be multiplied by these. The second axis is turned round if `hand` is -1. A share per
unit of time, such as a damping, becomes another one by `share`. -/
structure Scales (K : Type) where
  len : K
  mass : K
  time : K
  hand : K
  share : K → K

namespace Scales
variable (U : Scales K)
/-- The units are units. -/
def Ok : Prop := 0 < U.len ∧ 0 < U.mass ∧ 0 < U.time ∧ (U.hand = 1 ∨ U.hand = -1)
/-- The number for a velocity. -/
def vel : K := U.len / U.time
/-- The number for an impulse. -/
def imp : K := U.mass * U.len / U.time
/-- The number for a force. -/
def frc : K := U.mass * U.len / (U.time * U.time)
/-- The number for a moment of inertia. -/
def moi : K := U.mass * (U.len * U.len)
/-- The number for an angular momentum. -/
def ang : K := U.mass * (U.len * U.len) / U.time
/-- The number for a torque. -/
def trq : K := U.mass * (U.len * U.len) / (U.time * U.time)
/-- A vector of some dimension. -/
def vec (c : K) (v : V2 K) : V2 K := ⟨c * v.x, c * (U.hand * v.y)⟩
/-- A number that may be infinite. -/
def fin (inf c x : K) : K := if x = inf then inf else c * x
/-- A placement. -/
def tr (t : Transform K) : Transform K := ⟨t.a, U.hand * t.b, U.hand * t.c, t.d, U.len * t.tx, U.len * (U.hand * t.ty)⟩
/-- A body. -/
def body (inf : K) (b : Body K) : Body K :=
  { m := fin inf U.mass b.m, mInv := b.mInv / U.mass, i := fin inf U.moi b.i, iInv := b.iInv / U.moi
    angle := U.hand * b.angle, w := U.hand * (b.w / U.time), torque := U.hand * (U.trq * b.torque)
    cog := U.vec U.len b.cog, p := U.vec U.len b.p, v := U.vec U.vel b.v, force := U.vec U.frc b.force, tr := U.tr b.tr
    idle := fin inf U.time b.idle, vBias := U.vec U.vel b.vBias, wBias := U.hand * (b.wBias / U.time) }
/-- An inverse mass for every direction, inverted. -/
def mat (m : Mat2x2 K) : Mat2x2 K := ⟨U.mass * m.a, U.mass * (U.hand * m.b), U.mass * (U.hand * m.c), U.mass * m.d⟩
/-- A contact. The friction points the other way along the tangent in a mirror. -/
def contact (c : Contact K) : Contact K :=
  { r1 := U.vec U.len c.r1, r2 := U.vec U.len c.r2, nMass := U.mass * c.nMass, tMass := U.mass * c.tMass, bounce := U.vel * c.bounce
    jnAcc := U.imp * c.jnAcc, jtAcc := U.hand * (U.imp * c.jtAcc), jBias := U.imp * c.jBias, bias := U.vel * c.bias, hash := c.hash }
/-- A collision. -/
def arb (a : Arbiter K) : Arbiter K :=
  { a with surfaceVr := U.vec U.vel a.surfaceVr, normal := U.vec 1 a.normal, contacts := a.contacts.map U.contact }
/-- Limits of a joint that pushes. -/
def lin (c : JointCfg K) : JointCfg K := ⟨U.frc * c.maxForce, U.share c.errorBias, U.vel * c.maxBias⟩
/-- Limits of a joint that turns. -/
def rot (c : JointCfg K) : JointCfg K := ⟨U.trq * c.maxForce, U.share c.errorBias, c.maxBias / U.time⟩
/-- A joint. -/
def joint : Joint K → Joint K
  | .pin j => .pin { U.lin j.toJointCfg with anchorA := U.vec U.len j.anchorA, anchorB := U.vec U.len j.anchorB, dist := U.len * j.dist, r1 := U.vec U.len j.r1, r2 := U.vec U.len j.r2, n := U.vec 1 j.n, nMass := U.mass * j.nMass, jnAcc := U.imp * j.jnAcc, bias := U.vel * j.bias }
  | .slide j => .slide { U.lin j.toJointCfg with anchorA := U.vec U.len j.anchorA, anchorB := U.vec U.len j.anchorB, min := U.len * j.min, max := U.len * j.max, r1 := U.vec U.len j.r1, r2 := U.vec U.len j.r2, n := U.vec 1 j.n, nMass := U.mass * j.nMass, jnAcc := U.imp * j.jnAcc, bias := U.vel * j.bias }
  | .pivot j => .pivot { U.lin j.toJointCfg with anchorA := U.vec U.len j.anchorA, anchorB := U.vec U.len j.anchorB, r1 := U.vec U.len j.r1, r2 := U.vec U.len j.r2, k := U.mat j.k, jAcc := U.vec U.imp j.jAcc, bias := U.vec U.vel j.bias }
  | .groove j => .groove { U.lin j.toJointCfg with grooveN := U.vec U.hand j.grooveN, grooveA := U.vec U.len j.grooveA, grooveB := U.vec U.len j.grooveB, anchorB := U.vec U.len j.anchorB, grooveTn := U.vec U.hand j.grooveTn, clamp := j.clamp, r1 := U.vec U.len j.r1, r2 := U.vec U.len j.r2, k := U.mat j.k, jAcc := U.vec U.imp j.jAcc, bias := U.vec U.vel j.bias }
  | .gear j => .gear { U.rot j.toJointCfg with phase := U.hand * j.phase, ratio := j.ratio, ratioInv := j.ratioInv, iSum := U.moi * j.iSum, bias := U.hand * (j.bias / U.time), jAcc := U.hand * (U.ang * j.jAcc) }
  | .ratchet j => .ratchet { U.rot j.toJointCfg with angle := U.hand * j.angle, phase := U.hand * j.phase, ratchet := U.hand * j.ratchet, iSum := U.moi * j.iSum, bias := U.hand * (j.bias / U.time), jAcc := U.hand * (U.ang * j.jAcc) }
  | .rotaryLimit j => .rotaryLimit { U.rot j.toJointCfg with min := if U.hand = 1 then j.min else -j.max, max := if U.hand = 1 then j.max else -j.min, iSum := U.moi * j.iSum, bias := U.hand * (j.bias / U.time), jAcc := U.hand * (U.ang * j.jAcc) }
  | .motor j => .motor { U.rot j.toJointCfg with rate := U.hand * (j.rate / U.time), iSum := U.moi * j.iSum, jAcc := U.hand * (U.ang * j.jAcc) }
  | .spring j => .spring { anchorA := U.vec U.len j.anchorA, anchorB := U.vec U.len j.anchorB, damping := U.mass / U.time * j.damping, forceFn := fun d => U.frc * j.forceFn (d / U.len), targetVrn := U.vel * j.targetVrn, vCoef := j.vCoef, r1 := U.vec U.len j.r1, r2 := U.vec U.len j.r2, nMass := U.mass * j.nMass, n := U.vec 1 j.n, jAcc := U.imp * j.jAcc }
  | .rotarySpring j => .rotarySpring { damping := U.ang * j.damping, torqueFn := fun x => U.hand * (U.trq * j.torqueFn (U.hand * x)), targetWrn := U.hand * (j.targetWrn / U.time), wCoef := j.wCoef, iSum := U.moi * j.iSum, jAcc := U.hand * (U.ang * j.jAcc) }
end Scales

/-- The numbers of a joint make sense: limits and shares are not negative, and a rotary limit has its ends in order. -/
def SoundJoint : Joint K → Prop
  | .pin j => 0 ≤ j.errorBias
  | .slide j => 0 ≤ j.errorBias
  | .pivot j => 0 ≤ j.errorBias
  | .groove j => 0 ≤ j.errorBias
  | .gear j => 0 ≤ j.errorBias ∧ 0 ≤ j.maxForce ∧ 0 ≤ j.maxBias
  | .ratchet j => 0 ≤ j.errorBias ∧ 0 ≤ j.maxForce ∧ 0 ≤ j.maxBias
  | .rotaryLimit j => 0 ≤ j.errorBias ∧ 0 ≤ j.maxForce ∧ 0 ≤ j.maxBias ∧ j.min ≤ j.max
  | .motor j => 0 ≤ j.maxForce
  | _ => True
end Spec

section helpers
variable {U : Scales K} (hU : U.Ok)
include hU

theorem Spec.Scales.hand_sq : U.hand * U.hand = 1 := by rcases hU.2.2.2 with h | h <;> rw [h] <;> norm_num
theorem Spec.Scales.vel_pos : 0 < U.vel := div_pos hU.1 hU.2.2.1
theorem Spec.Scales.imp_pos : 0 < U.imp := div_pos (mul_pos hU.2.1 hU.1) hU.2.2.1
theorem Spec.Scales.frc_pos : 0 < U.frc := div_pos (mul_pos hU.2.1 hU.1) (mul_pos hU.2.2.1 hU.2.2.1)
theorem Spec.Scales.moi_pos : 0 < U.moi := mul_pos hU.2.1 (mul_pos hU.1 hU.1)
theorem Spec.Scales.ang_pos : 0 < U.ang := div_pos (mul_pos hU.2.1 (mul_pos hU.1 hU.1)) hU.2.2.1
theorem Spec.Scales.trq_pos : 0 < U.trq := div_pos (mul_pos hU.2.1 (mul_pos hU.1 hU.1)) (mul_pos hU.2.2.1 hU.2.2.1)
omit hU
theorem Spec.Scales.vec_add (c : K) (v w : V2 K) : (U.vec c v).add (U.vec c w) = U.vec c (v.add w) := by simp only [Scales.vec, V2.add]; ext <;> ring
theorem Spec.Scales.vec_sub (c : K) (v w : V2 K) : (U.vec c v).sub (U.vec c w) = U.vec c (v.sub w) := by simp only [Scales.vec, V2.sub]; ext <;> ring
theorem Spec.Scales.vec_neg (c : K) (v : V2 K) : (U.vec c v).neg = U.vec c v.neg := by simp only [Scales.vec, V2.neg]; ext <;> ring
theorem Spec.Scales.vec_zero (c : K) : U.vec c V2.zero = V2.zero := by simp [Scales.vec, V2.zero]
theorem Spec.Scales.vec_scale (c d : K) (v : V2 K) (t : K) : (U.vec c v).scale (d * t) = U.vec (c * d) (v.scale t) := by
  simp only [Scales.vec, V2.scale]; ext <;> ring
theorem Spec.Scales.vec_scale' (c : K) (v : V2 K) (t : K) : (U.vec c v).scale t = U.vec c (v.scale t) := by
  simp only [Scales.vec, V2.scale]; ext <;> ring
theorem Spec.Scales.vec_scale1 (d : K) (v : V2 K) (t : K) : (U.vec 1 v).scale (d * t) = U.vec d (v.scale t) := by
  simp only [Scales.vec, V2.scale]; ext <;> ring
include hU
theorem Spec.Scales.vec_perp (c : K) (v : V2 K) : (U.vec c v).perp = U.vec (U.hand * c) v.perp := by
  have := Scales.hand_sq hU
  simp only [Scales.vec, V2.perp]; ext
  · simp only; ring
  · simp only; linear_combination -c * v.x * this
theorem Spec.Scales.vec_dot (c d : K) (v w : V2 K) : (U.vec c v).dot (U.vec d w) = c * d * v.dot w := by
  have := Scales.hand_sq hU
  simp only [Scales.vec, V2.dot]; linear_combination c * d * v.y * w.y * this
omit hU in
theorem Spec.Scales.vec_cross (c d : K) (v w : V2 K) : (U.vec c v).cross (U.vec d w) = U.hand * (c * d) * v.cross w := by
  simp only [Scales.vec, V2.cross]; ring
theorem Spec.Scales.vec_lengthSq (c : K) (v : V2 K) : (U.vec c v).lengthSq = c * c * v.lengthSq := Scales.vec_dot hU c c v v
theorem Spec.Scales.vec_mag {M : Mth K} (hM : M.Lawful) {c : K} (hc : 0 ≤ c) (v : V2 K) : (U.vec c v).mag M = c * v.mag M := by
  have h1 := mag_nonneg hM (U.vec c v)
  have h2 := mag_nonneg hM v
  have e1 := mag_sq hM (U.vec c v)
  have e2 := mag_sq hM v
  rw [Scales.vec_lengthSq hU] at e1
  have : (U.vec c v).mag M * (U.vec c v).mag M = (c * v.mag M) * (c * v.mag M) := by
    linear_combination e1 - c * c * e2
  exact (mul_self_inj h1 (mul_nonneg hc h2)).1 this
theorem Spec.Scales.vec_unit {M : Mth K} (hM : M.Lawful) {c : K} (hc : 0 < c) (v : V2 K) : (U.vec c v).unit M = U.vec 1 (v.unit M) := by
  have hc' := hc.ne'
  simp only [V2.unit, Scales.vec_mag hU hM hc.le]
  simp only [Scales.vec, V2.scale]
  rw [one_div, mul_inv]
  ext
  · simp only [one_div]; field_simp
  · simp only [one_div]; field_simp
theorem Spec.Scales.vec_clampMag {M : Mth K} (hM : M.Lawful) {c : K} (hc : 0 < c) (v : V2 K) (m : K) : (U.vec c v).clampMag M (c * m) = U.vec c (v.clampMag M m) := by
  simp only [V2.clampMag, Scales.vec_dot hU, Scales.vec_unit hU hM hc]
  have : c * c * v.dot v > c * m * (c * m) ↔ v.dot v > m * m := by
    rw [show c * m * (c * m) = c * c * (m * m) by ring]
    exact mul_lt_mul_iff_right₀ (mul_pos hc hc)
  by_cases h : v.dot v > m * m
  · rw [if_pos h, if_pos (this.2 h), Scales.vec_scale1]
  · rw [if_neg h, if_neg (fun h' => h (this.1 h'))]
theorem Spec.Scales.vec_project (c : K) {h : K} (hh : h ≠ 0) (v w : V2 K) : (U.vec c v).project (U.vec h w) = U.vec c (v.project w) := by
  simp only [V2.project, Scales.vec_dot hU]
  have : c * h * v.dot w / (h * h * w.dot w) = c / h * (v.dot w / w.dot w) := by
    by_cases h0 : w.dot w = 0
    · simp [h0]
    · field_simp
  rw [this]
  simp only [Scales.vec, V2.scale]
  ext
  · simp only; field_simp
  · simp only; field_simp
theorem Spec.Scales.vec_eq_zero {c : K} (hc : c ≠ 0) (v : V2 K) : U.vec c v = V2.zero ↔ v = V2.zero := by
  have hh : U.hand ≠ 0 := by intro h; have := Scales.hand_sq hU; rw [h] at this; norm_num at this
  simp [Scales.vec, V2.zero, V2.ext_iff, hc, hh]
omit hU in
theorem Spec.Scales.vec_rotate (d : K) (hh : U.hand * U.hand = 1) (n : V2 K) (x y : K) :
    (U.vec 1 n).rotate ⟨d * x, U.hand * (d * y)⟩ = U.vec d (n.rotate ⟨x, y⟩) := by
  simp only [Scales.vec, V2.rotate]; ext
  · simp only; linear_combination -n.y * d * y * hh
  · simp only; ring


omit hU in
theorem max_scale {c : K} (hc : 0 ≤ c) (x : K) : max (c * x) 0 = c * max x 0 := by
  rw [mul_max_of_nonneg _ _ hc, mul_zero]
omit hU in
theorem min_scale {c : K} (hc : 0 ≤ c) (x : K) : min 0 (c * x) = c * min 0 x := by
  rw [mul_min_of_nonneg _ _ hc, mul_zero]
omit hU in
theorem clamp_scale {c : K} (hc : 0 < c) (x lo hi : K) : clamp (c * x) (c * lo) (c * hi) = c * clamp x lo hi := by
  unfold clamp
  have : c * x > c * lo ↔ x > lo := mul_lt_mul_iff_right₀ hc
  by_cases h : x > lo
  · rw [if_pos h, if_pos (this.2 h), mul_min_of_nonneg _ _ hc.le]
  · rw [if_neg h, if_neg (fun h' => h (this.1 h')), mul_min_of_nonneg _ _ hc.le]
omit hU in
theorem clamp_turn (x : K) {lo hi : K} (h : lo ≤ hi) : clamp (-x) (-hi) (-lo) = -clamp x lo hi := by
  unfold clamp
  split_ifs with h1 h2 h2
  · rw [min_def, min_def]; split_ifs <;> linarith
  · rw [min_def, min_def]; split_ifs <;> linarith
  · rw [min_def, min_def]; split_ifs <;> linarith
  · rw [min_def, min_def]; split_ifs <;> linarith
theorem clamp_hand {c : K} (hc : 0 < c) (x : K) {m : K} (hm : 0 ≤ m) : clamp (U.hand * (c * x)) (-(c * m)) (c * m) = U.hand * (c * clamp x (-m) m) := by
  have e := clamp_scale hc x (-m) m
  rw [mul_neg] at e
  rcases hU.2.2.2 with h | h
  · rw [h, one_mul, one_mul, e]
  · rw [h, neg_one_mul, neg_one_mul, ← e, ← clamp_turn _ (by nlinarith), neg_neg]

/-! ## Bodies -/

theorem applyVector_scales (t : Transform K) (c : K) (v : V2 K) : (U.tr t).applyVector (U.vec c v) = U.vec c (t.applyVector v) := by
  have h := Scales.hand_sq hU
  simp only [Scales.tr, Scales.vec, Transform.applyVector]; ext
  · simp only; linear_combination t.c * c * v.y * h
  · simp only; ring
theorem apply_scales (t : Transform K) (v : V2 K) : (U.tr t).apply (U.vec U.len v) = U.vec U.len (t.apply v) := by
  have h := Scales.hand_sq hU
  simp only [Scales.tr, Scales.vec, Transform.apply]; ext
  · simp only; linear_combination t.c * U.len * v.y * h
  · simp only; ring
theorem anchorOffset_scales (inf : K) (b : Body K) (q : V2 K) : anchorOffset (U.body inf b) (U.vec U.len q) = U.vec U.len (anchorOffset b q) := by
  simp only [anchorOffset]
  show (U.tr b.tr).applyVector ((U.vec U.len q).sub (U.vec U.len b.cog)) = _
  rw [Scales.vec_sub, applyVector_scales hU]

theorem applyImpulses_scales (inf : K) (a b : Body K) (r1 r2 j : V2 K) :
    applyImpulses (U.body inf a) (U.body inf b) (U.vec U.len r1) (U.vec U.len r2) (U.vec U.imp j) = (U.body inf (applyImpulses a b r1 r2 j).1, U.body inf (applyImpulses a b r1 r2 j).2) := by
  obtain ⟨h1, h2, h3, h4⟩ := hU
  have h1' := h1.ne'; have h2' := h2.ne'; have h3' := h3.ne'
  simp only [applyImpulses, Scales.body, Scales.vec]
  refine Prod.ext ?_ ?_
  · simp only [Body.mk.injEq, V2.mk.injEq, true_and, and_true, Scales.moi, Scales.vel, Scales.imp]
    refine ⟨?_, ?_, ?_⟩ <;> field_simp
  · simp only [Body.mk.injEq, V2.mk.injEq, true_and, and_true, Scales.moi, Scales.vel, Scales.imp]
    refine ⟨?_, ?_, ?_⟩ <;> field_simp

theorem applyBiasImpulses_scales (inf : K) (a b : Body K) (r1 r2 j : V2 K) :
    applyBiasImpulses (U.body inf a) (U.body inf b) (U.vec U.len r1) (U.vec U.len r2) (U.vec U.imp j)
      = (U.body inf (applyBiasImpulses a b r1 r2 j).1, U.body inf (applyBiasImpulses a b r1 r2 j).2) := by
  obtain ⟨h1, h2, h3, h4⟩ := hU
  have h1' := h1.ne'; have h2' := h2.ne'; have h3' := h3.ne'
  simp only [applyBiasImpulses, Scales.body, Scales.vec]
  refine Prod.ext ?_ ?_
  · simp only [Body.mk.injEq, V2.mk.injEq, true_and, and_true, Scales.moi, Scales.vel, Scales.imp]
    refine ⟨⟨?_, ?_⟩, ?_⟩ <;> field_simp
  · simp only [Body.mk.injEq, V2.mk.injEq, true_and, and_true, Scales.moi, Scales.vel, Scales.imp]
    refine ⟨⟨?_, ?_⟩, ?_⟩ <;> field_simp

theorem relativeVelocity_scales (inf : K) (a b : Body K) (r1 r2 : V2 K) :
    relativeVelocity (U.body inf a) (U.body inf b) (U.vec U.len r1) (U.vec U.len r2) = U.vec U.vel (relativeVelocity a b r1 r2) := by
  have h := Scales.hand_sq hU
  simp only [relativeVelocity, Scales.body, Scales.vec, Scales.vel, V2.sub, V2.add, V2.scale, V2.perp]; ext
  · simp only; linear_combination (-(U.len * r2.y * (b.w / U.time)) + U.len * r1.y * (a.w / U.time)) * h
  · simp only; ring

theorem kScalar_scales (inf : K) (a b : Body K) (r1 r2 n : V2 K) : kScalar (U.body inf a) (U.body inf b) (U.vec U.len r1) (U.vec U.len r2) (U.vec 1 n) = kScalar a b r1 r2 n / U.mass := by
  have h := Scales.hand_sq hU
  obtain ⟨h1, h2, h3, -⟩ := hU
  have h1' := h1.ne'; have h2' := h2.ne'
  simp only [kScalar, kScalarBody, Scales.vec_cross, Scales.body, Scales.moi]
  field_simp
  linear_combination (a.iInv * r1.cross n ^ 2 + b.iInv * r2.cross n ^ 2) * h

theorem kScalar_perp_scales (inf : K) (a b : Body K) (r1 r2 n : V2 K) : kScalar (U.body inf a) (U.body inf b) (U.vec U.len r1) (U.vec U.len r2) (U.vec 1 n).perp = kScalar a b r1 r2 n.perp / U.mass := by
  have h := Scales.hand_sq hU
  rw [Scales.vec_perp hU]
  obtain ⟨h1, h2, h3, -⟩ := hU
  have h1' := h1.ne'; have h2' := h2.ne'
  simp only [kScalar, kScalarBody, Scales.vec_cross, Scales.body, Scales.moi]
  field_simp
  linear_combination (a.iInv * r1.cross n.perp ^ 2 + b.iInv * r2.cross n.perp ^ 2) * (U.hand * U.hand + 1) * h

theorem kTensor_scales (inf : K) (a b : Body K) (r1 r2 : V2 K) : kTensor (U.body inf a) (U.body inf b) (U.vec U.len r1) (U.vec U.len r2) = U.mat (kTensor a b r1 r2) := by
  have h := Scales.hand_sq hU
  obtain ⟨h1, h2, h3, -⟩ := hU
  have h1' := h1.ne'; have h2' := h2.ne'
  have e11 : a.mInv / U.mass + b.mInv / U.mass + U.len * (U.hand * r1.y) * (U.len * (U.hand * r1.y)) * (a.iInv / U.moi) + U.len * (U.hand * r2.y) * (U.len * (U.hand * r2.y)) * (b.iInv / U.moi)
      = (a.mInv + b.mInv + r1.y * r1.y * a.iInv + r2.y * r2.y * b.iInv) / U.mass := by
    simp only [Scales.moi]; field_simp
    linear_combination (a.iInv * r1.y ^ 2 + b.iInv * r2.y ^ 2) * h
  have e12 : 0 + -(U.len * r1.x) * (U.len * (U.hand * r1.y)) * (a.iInv / U.moi) + -(U.len * r2.x) * (U.len * (U.hand * r2.y)) * (b.iInv / U.moi)
      = U.hand * ((0 + -r1.x * r1.y * a.iInv + -r2.x * r2.y * b.iInv) / U.mass) := by
    simp only [Scales.moi]; field_simp; ring
  have e22 : a.mInv / U.mass + b.mInv / U.mass + U.len * r1.x * (U.len * r1.x) * (a.iInv / U.moi) + U.len * r2.x * (U.len * r2.x) * (b.iInv / U.moi)
      = (a.mInv + b.mInv + r1.x * r1.x * a.iInv + r2.x * r2.x * b.iInv) / U.mass := by
    simp only [Scales.moi]; field_simp
  simp only [kTensor, Scales.body, Scales.vec, Scales.mat, e11, e12, e22]
  generalize a.mInv + b.mInv + r1.y * r1.y * a.iInv + r2.y * r2.y * b.iInv = A
  generalize 0 + -r1.x * r1.y * a.iInv + -r2.x * r2.y * b.iInv = B
  generalize a.mInv + b.mInv + r1.x * r1.x * a.iInv + r2.x * r2.x * b.iInv = C
  have ed : A / U.mass * (C / U.mass) - U.hand * (B / U.mass) * (U.hand * (B / U.mass)) = (A * C - B * B) / (U.mass * U.mass) := by
    field_simp
    linear_combination -B ^ 2 * h
  rw [ed]
  generalize A * C - B * B = D
  have e1 : 1 / (D / (U.mass * U.mass)) = U.mass * U.mass * (1 / D) := by rw [one_div_div]; ring
  rw [e1]
  simp only [Mat2x2.mk.injEq]
  refine ⟨?_, ?_, ?_, ?_⟩ <;> field_simp

omit hU in
theorem Spec.Scales.mat_transform (hh : U.hand * U.hand = 1) (c : K) (m : Mat2x2 K) (v : V2 K) : (U.mat m).transform (U.vec c v) = U.vec (U.mass * c) (m.transform v) := by
  simp only [Scales.mat, Scales.vec, Mat2x2.transform]
  ext
  · simp only; linear_combination c * v.y * U.mass * m.b * hh
  · simp only; ring

/-! ## Contacts -/

theorem inv_scales (c k : K) : 1 / (k / c) = c * (1 / k) := by rw [one_div_div]; ring

theorem preStepContact_scales (inf : K) (arb : Arbiter K) (a b : Body K) (dt slop bias : K) (c : Contact K) :
    (U.arb arb).preStepContact (U.body inf a) (U.body inf b) (U.time * dt) (U.len * slop) bias (U.contact c) = U.contact (arb.preStepContact a b dt slop bias c) := by
  have e : (U.body inf b).p.sub (U.body inf a).p = U.vec U.len (b.p.sub a.p) := Scales.vec_sub _ _ _
  have hb : ∀ x : K, -bias * min 0 (U.len * 1 * x + U.len * slop) / (U.time * dt) = U.vel * (-bias * min 0 (x + slop) / dt) := by
    intro x
    rw [show U.len * 1 * x + U.len * slop = U.len * (x + slop) by ring, min_scale hU.1.le, Scales.vel]
    have := hU.2.2.1.ne'
    by_cases h0 : dt = 0
    · simp [h0]
    · field_simp
  simp only [Arbiter.preStepContact, Scales.arb, Scales.contact, e, Scales.vec_sub, Scales.vec_add, Scales.vec_dot hU,
    kScalar_scales hU, kScalar_perp_scales hU, inv_scales hU, normalRelativeVelocity, relativeVelocity_scales hU, hb, mul_zero]
  simp only [Contact.mk.injEq, true_and, and_true]
  ring

theorem preStep_scales (inf : K) (arb : Arbiter K) (a b : Body K) (dt slop bias : K) :
    (U.arb arb).preStep (U.body inf a) (U.body inf b) (U.time * dt) (U.len * slop) bias = U.arb (arb.preStep a b dt slop bias) := by
  have : (U.arb arb).contacts.map ((U.arb arb).preStepContact (U.body inf a) (U.body inf b) (U.time * dt) (U.len * slop) bias)
      = (arb.contacts.map (arb.preStepContact a b dt slop bias)).map U.contact := by
    show (arb.contacts.map U.contact).map _ = _
    rw [List.map_map, List.map_map]
    exact List.map_congr_left fun c _ => preStepContact_scales hU inf arb a b dt slop bias c
  simp only [Arbiter.preStep]
  rw [this]; rfl

theorem cachedLoop_scales (inf : K) (n : V2 K) (t : K) (cs : List (Contact K)) : ∀ a b : Body K,
    Arbiter.cachedLoop (U.vec 1 n) t (cs.map U.contact) (U.body inf a) (U.body inf b)
      = (U.body inf (Arbiter.cachedLoop n t cs a b).1, U.body inf (Arbiter.cachedLoop n t cs a b).2) := by
  induction cs with
  | nil => intro a b; rfl
  | cons c cs ih =>
    intro a b
    simp only [List.map_cons, Arbiter.cachedLoop, Scales.contact, Scales.vec_rotate _ (Scales.hand_sq hU), Scales.vec_scale', applyImpulses_scales hU]
    exact ih _ _

theorem contactStep_scales (inf : K) (n sv : V2 K) {u : K} (hu : 0 ≤ u) (a b : Body K) (c : Contact K) :
    Arbiter.contactStep (U.vec 1 n) (U.vec U.vel sv) u (U.body inf a) (U.body inf b) (U.contact c) =
      let t := Arbiter.contactStep n sv u a b c
      (U.body inf t.1, U.body inf t.2.1, U.contact t.2.2) := by
  have hh := Scales.hand_sq hU
  have hi := Scales.imp_pos hU
  have e1 : (((U.body inf b).vBias.add ((U.vec U.len c.r2).perp.scale (U.body inf b).wBias)).sub ((U.body inf a).vBias.add ((U.vec U.len c.r1).perp.scale (U.body inf a).wBias))).dot (U.vec 1 n)
      = U.vel * ((b.vBias.add (c.r2.perp.scale b.wBias)).sub (a.vBias.add (c.r1.perp.scale a.wBias))).dot n := by
    have : ((U.body inf b).vBias.add ((U.vec U.len c.r2).perp.scale (U.body inf b).wBias)).sub ((U.body inf a).vBias.add ((U.vec U.len c.r1).perp.scale (U.body inf a).wBias))
        = U.vec U.vel ((b.vBias.add (c.r2.perp.scale b.wBias)).sub (a.vBias.add (c.r1.perp.scale a.wBias))) := by
      simp only [Scales.body, Scales.vec, Scales.vel, V2.sub, V2.add, V2.scale, V2.perp]; ext
      · simp only; linear_combination (-(U.len * c.r2.y * (b.wBias / U.time)) + U.len * c.r1.y * (a.wBias / U.time)) * hh
      · simp only; ring
    rw [this, Scales.vec_dot hU, mul_one]
  have e2 : ∀ v : V2 K, (U.vec U.vel v).dot (U.vec 1 n) = U.vel * v.dot n := fun v => by rw [Scales.vec_dot hU, mul_one]
  have e3 : ∀ v : V2 K, (U.vec U.vel v).dot (U.vec 1 n).perp = U.hand * (U.vel * v.dot n.perp) := fun v => by
    rw [Scales.vec_perp hU, Scales.vec_dot hU]; ring
  have hvm : U.vel * U.mass = U.imp := by simp only [Scales.vel, Scales.imp]; ring
  have m1 : ∀ j x y k : K, max (U.imp * j + (U.vel * x - U.vel * y) * (U.mass * k)) 0 = U.imp * max (j + (x - y) * k) 0 := by
    intro j x y k
    rw [← max_scale hi.le, ← hvm]; congr 1; ring
  have m2 : ∀ j x y k : K, max (U.imp * j + -(U.vel * x + U.vel * y) * (U.mass * k)) 0 = U.imp * max (j + -(x + y) * k) 0 := by
    intro j x y k
    rw [← max_scale hi.le, ← hvm]; congr 1; ring
  have m3 : ∀ j x k q : K, 0 ≤ q → clamp (U.hand * (U.imp * j) + -(U.hand * (U.vel * x)) * (U.mass * k)) (-(u * (U.imp * q))) (u * (U.imp * q))
      = U.hand * (U.imp * clamp (j + -x * k) (-(u * q)) (u * q)) := by
    intro j x k q hq
    rw [← clamp_hand hU hi _ (mul_nonneg hu hq), show u * (U.imp * q) = U.imp * (u * q) by ring]
    congr 1
    rw [← hvm]; ring
  have e4 : ∀ x y : K, (U.vec 1 n).scale (U.imp * x - U.imp * y) = U.vec U.imp (n.scale (x - y)) := by
    intro x y; rw [← mul_sub, Scales.vec_scale1]
  have e5 : ∀ x y z w : K, (U.vec 1 n).rotate ⟨U.imp * x - U.imp * y, U.hand * (U.imp * z) - U.hand * (U.imp * w)⟩ = U.vec U.imp (n.rotate ⟨x - y, z - w⟩) := by
    intro x y z w; rw [← mul_sub, ← mul_sub, ← mul_sub, Scales.vec_rotate _ hh]
  simp only [Arbiter.contactStep, Scales.contact, relativeVelocity_scales hU, e1, Scales.vec_add, e2, e3, m1, m2, m3 _ _ _ _ (le_max_right _ _), e4, e5,
    applyBiasImpulses_scales hU, applyImpulses_scales hU]

theorem impulseLoop_scales (inf : K) (n sv : V2 K) {u : K} (hu : 0 ≤ u) (cs : List (Contact K)) : ∀ a b : Body K,
    Arbiter.impulseLoop (U.vec 1 n) (U.vec U.vel sv) u (cs.map U.contact) (U.body inf a) (U.body inf b) =
      let t := Arbiter.impulseLoop n sv u cs a b
      (U.body inf t.1, U.body inf t.2.1, t.2.2.map U.contact) := by
  induction cs with
  | nil => intro a b; rfl
  | cons c cs ih =>
    intro a b
    simp only [List.map_cons, Arbiter.impulseLoop, contactStep_scales hU inf _ _ hu, ih]

theorem arb_applyImpulse_scales (inf : K) (arb : Arbiter K) (hu : 0 ≤ arb.u) (a b : Body K) :
    (U.arb arb).applyImpulse (U.body inf a) (U.body inf b) = let t := arb.applyImpulse a b; (U.body inf t.1, U.body inf t.2.1, U.arb t.2.2) := by
  simp only [Arbiter.applyImpulse, Scales.arb, impulseLoop_scales hU inf _ _ hu]

theorem arb_cached_scales (inf : K) (arb : Arbiter K) (a b : Body K) (t : K) :
    (U.arb arb).applyCachedImpulse (U.body inf a) (U.body inf b) t = (U.body inf (arb.applyCachedImpulse a b t).1, U.body inf (arb.applyCachedImpulse a b t).2) := by
  simp only [Arbiter.applyCachedImpulse, Scales.arb, cachedLoop_scales hU]
  split <;> rfl

/-! ## Joints -/

theorem spin_scales (inf : K) (a b : Body K) (j c : K) : spin (U.body inf a) (U.body inf b) (U.hand * (U.ang * j)) c = (U.body inf (spin a b j c).1, U.body inf (spin a b j c).2) := by
  have h1 := hU.1.ne'; have h2 := hU.2.1.ne'; have h3 := hU.2.2.1.ne'
  simp only [spin, Scales.body]
  refine Prod.ext ?_ ?_
  · simp only [Body.mk.injEq, true_and, and_true, Scales.moi, Scales.ang]; field_simp
  · simp only [Body.mk.injEq, true_and, and_true, Scales.moi, Scales.ang]; field_simp

theorem bias_lin (c x dt mb : K) : clamp (-c * (U.len * x) / (U.time * dt)) (-(U.vel * mb)) (U.vel * mb) = U.vel * clamp (-c * x / dt) (-mb) mb := by
  rw [← clamp_scale (Scales.vel_pos hU), ← mul_neg]
  congr 1
  have := hU.2.2.1.ne'
  simp only [Scales.vel]
  by_cases h0 : dt = 0
  · simp [h0]
  · field_simp

theorem bias_rot (c x dt : K) {mb : K} (hmb : 0 ≤ mb) : clamp (-c * (U.hand * x) / (U.time * dt)) (-(mb / U.time)) (mb / U.time) = U.hand * (clamp (-c * x / dt) (-mb) mb / U.time) := by
  have ht := hU.2.2.1
  have ht' := ht.ne'
  have := clamp_hand hU (inv_pos.2 ht) (-c * x / dt) hmb
  rw [show clamp (-c * x / dt) (-mb) mb / U.time = U.time⁻¹ * clamp (-c * x / dt) (-mb) mb by rw [div_eq_inv_mul], ← this, div_eq_inv_mul mb]
  congr 1
  by_cases h0 : dt = 0
  · simp [h0]
  · field_simp

theorem bias_vec {M : Mth K} (hM : M.Lawful) (c dt mb : K) (v : V2 K) : ((U.vec U.len v).scale (-c / (U.time * dt))).clampMag M (U.vel * mb) = U.vec U.vel ((v.scale (-c / dt)).clampMag M mb) := by
  rw [← Scales.vec_clampMag hU hM (Scales.vel_pos hU)]
  congr 1
  have := hU.2.2.1.ne'
  rw [show -c / (U.time * dt) = 1 / U.time * (-c / dt) by by_cases h0 : dt = 0 <;> [simp [h0]; field_simp], Scales.vec_scale, Scales.vel]
  congr 1
  ring

theorem iSum_scales (x : K) : 1 / (x / U.moi) = U.moi * (1 / x) := inv_scales hU _ _

theorem dir_scales {M : Mth K} (hM : M.Lawful) (inf : K) (v : V2 K) :
    (if U.len * v.mag M ≠ 0 then (U.vec U.len v).scale (1 / (U.len * v.mag M)) else (U.vec U.len v).scale (1 / inf))
      = U.vec 1 (if v.mag M ≠ 0 then v.scale (1 / v.mag M) else v.scale (1 / inf)) := by
  have h1 := hU.1.ne'
  by_cases h : v.mag M = 0
  · have hv := mag_eq_zero hM v h
    rw [h, mul_zero, if_neg (by simp), if_neg (by simp), hv]
    simp [Scales.vec, V2.zero, V2.scale]
  · rw [if_pos (mul_ne_zero h1 h), if_pos h]
    simp only [Scales.vec, V2.scale]
    ext
    · simp only; field_simp
    · simp only; field_simp

variable {M : Mth K} (hM : M.Lawful) (hsh : ∀ e t, 0 ≤ e → M.pow (U.share e) (U.time * t) = M.pow e t)
include hM hsh

omit hU hM in
theorem biasCoef_scales {e : K} (he : 0 ≤ e) (dt : K) : biasCoef M (U.share e) (U.time * dt) = biasCoef M e dt := by
  simp only [biasCoef, hsh e dt he]

theorem joint_preStep_scales (inf dt : K) (jt : Joint K) (h : SoundJoint jt) (a b : Body K) :
    (U.joint jt).preStep M inf (U.body inf a) (U.body inf b) (U.time * dt) = let t := jt.preStep M inf a b dt; (U.body inf t.1, U.body inf t.2.1, U.joint t.2.2) := by
  have hh := Scales.hand_sq hU
  have hh0 : U.hand ≠ 0 := by intro h; rw [h] at hh; norm_num at hh
  have ep : ∀ x : Body K, (U.body inf x).p = U.vec U.len x.p := fun _ => rfl
  have et : ∀ x : Body K, (U.body inf x).tr = U.tr x.tr := fun _ => rfl
  have ea : ∀ x : Body K, (U.body inf x).angle = U.hand * x.angle := fun _ => rfl
  have ei : ∀ x : Body K, (U.body inf x).iInv = x.iInv / U.moi := fun _ => rfl
  have hm := mag_nonneg hM
  cases jt with
  | pin j =>
    simp only [Joint.preStep, Scales.joint, Scales.lin, PinJoint.preStep, anchorOffset_scales hU, ep, Scales.vec_add, Scales.vec_sub, Scales.vec_mag hU hM hU.1.le, dir_scales hU hM,
      kScalar_scales hU, inv_scales hU, biasCoef_scales hsh h, ← mul_sub, bias_lin hU]
  | slide j =>
    have e0 := kScalar_scales hU inf a b (anchorOffset a j.anchorA) (anchorOffset b j.anchorB) V2.zero
    rw [Scales.vec_zero] at e0
    have c1 : ∀ x y : K, U.len * x > U.len * y ↔ x > y := fun x y => mul_lt_mul_iff_right₀ hU.1
    have c2 : ∀ x y : K, U.len * x < U.len * y ↔ x < y := fun x y => mul_lt_mul_iff_right₀ hU.1
    simp only [Joint.preStep, Scales.joint, Scales.lin, SlideJoint.preStep, anchorOffset_scales hU, ep, Scales.vec_add, Scales.vec_sub, Scales.vec_mag hU hM hU.1.le, Scales.vec_unit hU hM hU.1,
      Scales.vec_neg, c1, c2, biasCoef_scales hsh h]
    split_ifs
    · simp only [kScalar_scales hU, inv_scales hU, ← mul_sub, bias_lin hU]
    · simp only [kScalar_scales hU, inv_scales hU, ← mul_sub, bias_lin hU]
    · have := bias_lin hU (biasCoef M j.errorBias dt) 0 dt j.maxBias
      simp only [mul_zero] at this
      simp only [e0, Scales.vec_zero, inv_scales hU, this, mul_zero]
  | pivot j =>
    simp only [Joint.preStep, Scales.joint, Scales.lin, PivotJoint.preStep, anchorOffset_scales hU, ep, Scales.vec_add, Scales.vec_sub, biasCoef_scales hsh h, bias_vec hU hM, kTensor_scales hU]
  | groove j =>
    have c1 : ∀ x y : V2 K, (U.vec U.len x).cross (U.vec U.hand y) = U.len * x.cross y := by
      intro x y; rw [Scales.vec_cross]; linear_combination U.len * x.cross y * hh
    have c2 : ∀ x y : K, U.len * x ≤ U.len * y ↔ x ≤ y := fun x y => mul_le_mul_iff_right₀ hU.1
    have c3 : ∀ (n q : V2 K) (x y : K), (((U.vec U.hand n).perp.scale (-(U.len * x))).add ((U.vec U.hand n).scale (U.len * U.hand * y))).sub (U.vec U.len q)
        = U.vec U.len (((n.perp.scale (-x)).add (n.scale y)).sub q) := by
      intro n q x y
      simp only [Scales.vec, V2.perp, V2.scale, V2.add, V2.sub]
      ext
      · simp only; linear_combination (U.len * n.y * x + U.len * y * n.x) * hh
      · simp only; linear_combination (U.hand * n.y * U.len * y) * hh
    simp only [Joint.preStep, Scales.joint, Scales.lin, GrooveJoint.preStep, anchorOffset_scales hU, ep, et, applyVector_scales hU, apply_scales hU, Scales.vec_add, Scales.vec_sub, Scales.vec_dot hU, c1,
      ge_iff_le, c2, c3, biasCoef_scales hsh h]
    split_ifs
    · simp only [Scales.vec_add, Scales.vec_sub, bias_vec hU hM, kTensor_scales hU]
    · simp only [Scales.vec_add, Scales.vec_sub, bias_vec hU hM, kTensor_scales hU]
    · simp only [Scales.vec_add, Scales.vec_sub, bias_vec hU hM, kTensor_scales hU]
  | gear j =>
    obtain ⟨h1, h2, h3⟩ := h
    have e1 : U.hand * b.angle * j.ratio - U.hand * a.angle - U.hand * j.phase = U.hand * (b.angle * j.ratio - a.angle - j.phase) := by ring
    have e2 : a.iInv / U.moi * j.ratioInv + j.ratio * (b.iInv / U.moi) = (a.iInv * j.ratioInv + j.ratio * b.iInv) / U.moi := by ring
    simp only [Joint.preStep, Scales.joint, Scales.rot, GearJoint.preStep, ea, ei, e1, e2, iSum_scales hU, biasCoef_scales hsh h1, bias_rot hU _ _ _ h3]
  | ratchet j =>
    obtain ⟨h1, h2, h3⟩ := h
    have e1 : U.hand * b.angle - U.hand * a.angle = U.hand * (b.angle - a.angle) := by ring
    have e2 : a.iInv / U.moi + b.iInv / U.moi = (a.iInv + b.iInv) / U.moi := by ring
    have e3 : ∀ x y : K, (U.hand * x) * (U.hand * y) = x * y := by intro x y; linear_combination x * y * hh
    have e4 : ∀ x y : K, (U.hand * x) / (U.hand * y) = x / y := fun x y => mul_div_mul_left _ _ hh0
    have e5 : ∀ x : K, (U.hand * (x / U.time) = 0) = (x = 0) := by
      intro x; simp [hh0, hU.2.2.1.ne']
    have e6 : ∀ x y z : K, x * (U.hand * y) + U.hand * z = U.hand * (x * y + z) := by intro x y z; ring
    have b0 := bias_rot hU (biasCoef M j.errorBias dt) 0 dt h3
    rw [mul_zero] at b0
    simp only [Joint.preStep, Scales.joint, Scales.rot, RatchetJoint.preStep, ea, ei, e1, e2, ← mul_sub, e3, e4, e6, iSum_scales hU, biasCoef_scales hsh h1]
    by_cases hc : (j.angle - (b.angle - a.angle)) * j.ratchet > 0
    · simp only [if_pos hc, bias_rot hU _ _ _ h3, e5]
      split_ifs <;> simp
    · simp only [mul_zero] at b0
      simp only [if_neg hc, mul_zero, b0, e5]
      split_ifs <;> simp
  | rotaryLimit j =>
    obtain ⟨h1, h2, h3, h4⟩ := h
    have e1 : U.hand * b.angle - U.hand * a.angle = U.hand * (b.angle - a.angle) := by ring
    have e2 : a.iInv / U.moi + b.iInv / U.moi = (a.iInv + b.iInv) / U.moi := by ring
    have e5 : ∀ x : K, (U.hand * (x / U.time) = 0) = (x = 0) := by
      intro x; simp [hh0, hU.2.2.1.ne']
    generalize hd : b.angle - a.angle = d at *
    have pd : (if U.hand * d > (if U.hand = 1 then j.max else -j.min) then (if U.hand = 1 then j.max else -j.min) - U.hand * d
          else if U.hand * d < (if U.hand = 1 then j.min else -j.max) then (if U.hand = 1 then j.min else -j.max) - U.hand * d else 0)
        = U.hand * (if d > j.max then j.max - d else if d < j.min then j.min - d else 0) := by
      rcases hU.2.2.2 with h | h
      · simp only [h, one_mul, if_true]
      · have hn : ¬ ((-1 : K) = 1) := by norm_num
        simp only [h, hn, if_false]
        split_ifs <;> linarith
    simp only [Joint.preStep, Scales.joint, Scales.rot, RotaryLimitJoint.preStep, ea, ei, e1, e2, hd, pd, iSum_scales hU, biasCoef_scales hsh h1, bias_rot hU _ _ _ h3, e5]
    split_ifs <;> simp
  | motor j =>
    have e2 : a.iInv / U.moi + b.iInv / U.moi = (a.iInv + b.iInv) / U.moi := by ring
    simp only [Joint.preStep, Scales.joint, Scales.rot, SimpleMotor.preStep, ei, e2, iSum_scales hU]
  | spring j =>
    have h1 := hU.1.ne'; have h2 := hU.2.1.ne'; have h3 := hU.2.2.1.ne'
    have e1 : ∀ x : K, U.frc * j.forceFn (U.len * x / U.len) * (U.time * dt) = U.imp * (j.forceFn x * dt) := by
      intro x
      rw [mul_div_cancel_left₀ _ h1]; simp only [Scales.frc, Scales.imp]; field_simp
    have e2 : ∀ k : K, -(U.mass / U.time * j.damping) * (U.time * dt) * (k / U.mass) = -j.damping * dt * k := by
      intro k; field_simp
    simp only [Joint.preStep, Scales.joint, DampedSpring.preStep, anchorOffset_scales hU, ep, Scales.vec_add, Scales.vec_sub, Scales.vec_mag hU hM hU.1.le, dir_scales hU hM, kScalar_scales hU,
      inv_scales hU, e1, e2, Scales.vec_scale1, applyImpulses_scales hU, mul_zero]
  | rotarySpring j =>
    have h1 := hU.1.ne'; have h2 := hU.2.1.ne'; have h3 := hU.2.2.1.ne'
    have e2 : a.iInv / U.moi + b.iInv / U.moi = (a.iInv + b.iInv) / U.moi := by ring
    have e1 : U.hand * (U.trq * j.torqueFn (U.hand * (U.hand * a.angle - U.hand * b.angle))) * (U.time * dt) = U.hand * (U.ang * (j.torqueFn (a.angle - b.angle) * dt)) := by
      rw [show U.hand * (U.hand * a.angle - U.hand * b.angle) = a.angle - b.angle by linear_combination (a.angle - b.angle) * hh]
      simp only [Scales.trq, Scales.ang]; field_simp
    have e3 : ∀ k : K, -(U.ang * j.damping) * (U.time * dt) * (k / U.moi) = -j.damping * dt * k := by
      intro k; simp only [Scales.ang, Scales.moi]; field_simp
    simp only [Joint.preStep, Scales.joint, DampedRotarySpring.preStep]
    refine Prod.ext ?_ (Prod.ext ?_ ?_)
    · simp only [Scales.body, e1, Body.mk.injEq, true_and, and_true, Scales.moi, Scales.ang]; field_simp
    · simp only [Scales.body, e1, Body.mk.injEq, true_and, and_true, Scales.moi, Scales.ang]; field_simp
    · simp only [Scales.body, e1, e2, iSum_scales hU, e3, zero_div, mul_zero]

omit hM hsh in
theorem force_dt (f dt : K) : U.frc * f * (U.time * dt) = U.imp * (f * dt) := by
  have := hU.2.2.1.ne'
  simp only [Scales.frc, Scales.imp]; field_simp
omit hM hsh in
theorem torque_dt (f dt : K) : U.trq * f * (U.time * dt) = U.ang * (f * dt) := by
  have := hU.2.2.1.ne'
  simp only [Scales.trq, Scales.ang]; field_simp

omit hM hsh in
theorem joint_cached_scales (inf : K) (jt : Joint K) (a b : Body K) (t : K) :
    (U.joint jt).applyCached (U.body inf a) (U.body inf b) t = (U.body inf (jt.applyCached a b t).1, U.body inf (jt.applyCached a b t).2) := by
  cases jt with
  | pin j => simp only [Joint.applyCached, Scales.joint, PinJoint.applyCached, mul_assoc, Scales.vec_scale1, applyImpulses_scales hU]
  | slide j => simp only [Joint.applyCached, Scales.joint, SlideJoint.applyCached, mul_assoc, Scales.vec_scale1, applyImpulses_scales hU]
  | pivot j => simp only [Joint.applyCached, Scales.joint, PivotJoint.applyCached, Scales.vec_scale', applyImpulses_scales hU]
  | groove j => simp only [Joint.applyCached, Scales.joint, GrooveJoint.applyCached, Scales.vec_scale', applyImpulses_scales hU]
  | gear j => simp only [Joint.applyCached, Scales.joint, GearJoint.applyCached, mul_assoc, spin_scales hU]
  | ratchet j => simp only [Joint.applyCached, Scales.joint, RatchetJoint.applyCached, mul_assoc, spin_scales hU]
  | rotaryLimit j => simp only [Joint.applyCached, Scales.joint, RotaryLimitJoint.applyCached, mul_assoc, spin_scales hU]
  | motor j => simp only [Joint.applyCached, Scales.joint, SimpleMotor.applyCached, mul_assoc, spin_scales hU]
  | spring j => rfl
  | rotarySpring j => rfl

omit hsh in
theorem joint_applyImpulse_scales (inf : K) {dt : K} (hdt : 0 ≤ dt) (jt : Joint K) (h : SoundJoint jt) (a b : Body K) :
    (U.joint jt).applyImpulse M (U.body inf a) (U.body inf b) (U.time * dt) = let t := jt.applyImpulse M a b dt; (U.body inf t.1, U.body inf t.2.1, U.joint t.2.2) := by
  have hh := Scales.hand_sq hU
  have hh0 : U.hand ≠ 0 := by intro h; rw [h] at hh; norm_num at hh
  have h1 := hU.1.ne'; have h2 := hU.2.1.ne'; have h3 := hU.2.2.1.ne'
  have ew : ∀ x : Body K, (U.body inf x).w = U.hand * (x.w / U.time) := fun _ => rfl
  have lin1 : ∀ x y z : K, (U.vel * x - U.vel * y) * (U.mass * z) = U.imp * ((x - y) * z) := by
    intro x y z; simp only [Scales.vel, Scales.imp]; field_simp
  have addI : ∀ x y : K, U.imp * x + U.imp * y = U.imp * (x + y) := fun x y => (mul_add _ _ _).symm
  have subI : ∀ x y : K, U.imp * x - U.imp * y = U.imp * (x - y) := fun x y => (mul_sub _ _ _).symm
  have clI : ∀ x m : K, clamp (U.imp * x) (-(U.imp * m)) (U.imp * m) = U.imp * clamp x (-m) m := by
    intro x m; rw [← clamp_scale (Scales.imp_pos hU), mul_neg]
  have mt : ∀ (m : Mat2x2 K) (v : V2 K), (U.mat m).transform (U.vec U.vel v) = U.vec U.imp (m.transform v) := by
    intro m v; rw [Scales.mat_transform hh]; congr 1; simp only [Scales.vel, Scales.imp]; ring
  have rot1 : ∀ x z : K, U.hand * (x / U.time) * (U.moi * z) = U.hand * (U.ang * (x * z)) := by
    intro x z; simp only [Scales.moi, Scales.ang]; field_simp
  have fold2 : ∀ x y : K, U.hand * (U.ang * x) + U.hand * (U.ang * y) = U.hand * (U.ang * (x + y)) := by intro x y; ring
  have fold3 : ∀ x y : K, U.hand * (U.ang * x) - U.hand * (U.ang * y) = U.hand * (U.ang * (x - y)) := by intro x y; ring
  have vr : ∀ (r1 r2 n : V2 K), (relativeVelocity (U.body inf a) (U.body inf b) (U.vec U.len r1) (U.vec U.len r2)).dot (U.vec 1 n) = U.vel * (relativeVelocity a b r1 r2).dot n := by
    intro r1 r2 n
    rw [relativeVelocity_scales hU, Scales.vec_dot hU, mul_one]
  cases jt with
  | pin j =>
    simp only [Joint.applyImpulse, Scales.joint, Scales.lin, PinJoint.applyImpulse, normalRelativeVelocity, vr, lin1, addI, force_dt hU, clI, subI,
      Scales.vec_scale1, applyImpulses_scales hU]
  | slide j =>
    have e : ∀ f : K, -(U.frc * f) * (U.time * dt) = U.imp * (-f * dt) := by intro f; rw [← mul_neg, force_dt hU]
    have c : ∀ x lo : K, clamp (U.imp * x) (U.imp * lo) 0 = U.imp * clamp x lo 0 := by
      intro x lo; rw [← clamp_scale (Scales.imp_pos hU), mul_zero]
    simp only [Joint.applyImpulse, Scales.joint, Scales.lin, SlideJoint.applyImpulse, Scales.vec_eq_zero hU one_ne_zero]
    split
    · rfl
    · simp only [vr, lin1, addI, e, c, subI, Scales.vec_scale1, applyImpulses_scales hU]
  | pivot j =>
    simp only [Joint.applyImpulse, Scales.joint, Scales.lin, PivotJoint.applyImpulse, relativeVelocity_scales hU, Scales.vec_sub, mt, Scales.vec_add, force_dt hU,
      Scales.vec_clampMag hU hM (Scales.imp_pos hU), applyImpulses_scales hU]
  | groove j =>
    have e1 : ∀ x y : V2 K, (U.vec U.imp x).cross (U.vec U.hand y) = U.imp * x.cross y := by
      intro x y; rw [Scales.vec_cross]; linear_combination U.imp * x.cross y * hh
    have e2 : ∀ c x : K, c * (U.imp * x) > 0 ↔ c * x > 0 := by
      intro c x
      rw [show c * (U.imp * x) = U.imp * (c * x) by ring]
      exact mul_pos_iff_of_pos_left (Scales.imp_pos hU)
    have e3 : ∀ d : V2 K, (if j.clamp * d.cross j.grooveTn > 0 then U.vec U.imp d else U.vec U.imp (d.project j.grooveTn)) = U.vec U.imp (if j.clamp * d.cross j.grooveTn > 0 then d else d.project j.grooveTn) := by
      intro d; split <;> rfl
    simp only [Joint.applyImpulse, Scales.joint, Scales.lin, GrooveJoint.applyImpulse, GrooveJoint.grooveConstrain, relativeVelocity_scales hU, Scales.vec_sub, mt, Scales.vec_add, force_dt hU,
      e1, e2, Scales.vec_project hU _ hh0, e3, Scales.vec_clampMag hU hM (Scales.imp_pos hU), applyImpulses_scales hU]
  | gear j =>
    obtain ⟨g1, g2, g3⟩ := h
    have e : U.hand * (j.bias / U.time) - (U.hand * (b.w / U.time) * j.ratio - U.hand * (a.w / U.time)) = U.hand * ((j.bias - (b.w * j.ratio - a.w)) / U.time) := by ring
    simp only [Joint.applyImpulse, Scales.joint, Scales.rot, GearJoint.applyImpulse, ew, e, rot1, fold2, fold3, torque_dt hU, clamp_hand hU (Scales.ang_pos hU) _ (mul_nonneg g2 hdt), spin_scales hU]
  | ratchet j =>
    have e0 : (U.hand * (j.bias / U.time) = 0) = (j.bias = 0) := by simp [hh0, h3]
    have e : -(U.hand * (j.bias / U.time) + (U.hand * (b.w / U.time) - U.hand * (a.w / U.time))) = U.hand * (-(j.bias + (b.w - a.w)) / U.time) := by ring
    have e1 : ∀ x : K, U.hand * (U.ang * x) * (U.hand * j.ratchet) = U.ang * (x * j.ratchet) := by
      intro x; linear_combination U.ang * x * j.ratchet * hh
    have e2 : ∀ x : K, |U.hand * x| = |x| := by
      intro x; rw [abs_mul]; rcases hU.2.2.2 with h | h <;> rw [h] <;> simp
    have e3 : ∀ x hi : K, clamp (U.ang * x) 0 (U.ang * hi) = U.ang * clamp x 0 hi := by
      intro x hi; rw [← clamp_scale (Scales.ang_pos hU), mul_zero]
    have e4 : ∀ x : K, U.ang * x / (U.hand * j.ratchet) = U.hand * (U.ang * (x / j.ratchet)) := by
      intro x
      rw [div_mul_eq_div_div, show U.ang * x / U.hand = U.hand * (U.ang * x) by rw [div_eq_iff hh0]; linear_combination -(U.ang * x) * hh]
      ring
    simp only [Joint.applyImpulse, Scales.joint, Scales.rot, RatchetJoint.applyImpulse, e0]
    split
    · rfl
    · simp only [fabs_eq, ew, e, rot1, fold2, e1, e2, torque_dt hU, mul_assoc U.ang, e3, e4, fold3, spin_scales hU]
  | rotaryLimit j =>
    obtain ⟨g1, g2, g3, g4⟩ := h
    have hj := mul_nonneg g2 hdt
    have e0 : (U.hand * (j.bias / U.time) = 0) = (j.bias = 0) := by simp [hh0, h3]
    have e : -(U.hand * (j.bias / U.time) + (U.hand * (b.w / U.time) - U.hand * (a.w / U.time))) = U.hand * (-(j.bias + (b.w - a.w)) / U.time) := by ring
    simp only [Joint.applyImpulse, Scales.joint, Scales.rot, RotaryLimitJoint.applyImpulse, e0]
    by_cases hb : j.bias = 0
    · rw [if_pos hb, if_pos hb]
    · rw [if_neg hb, if_neg hb]
      have key : ∀ x : K, (if U.hand * (j.bias / U.time) < 0 then Cm.clamp (U.hand * (U.ang * x)) 0 (U.ang * (j.maxForce * dt)) else Cm.clamp (U.hand * (U.ang * x)) (-(U.ang * (j.maxForce * dt))) 0)
          = U.hand * (U.ang * (if j.bias < 0 then Cm.clamp x 0 (j.maxForce * dt) else Cm.clamp x (-(j.maxForce * dt)) 0)) := by
        intro x
        have s1 : Cm.clamp (U.ang * x) 0 (U.ang * (j.maxForce * dt)) = U.ang * Cm.clamp x 0 (j.maxForce * dt) := by rw [← clamp_scale (Scales.ang_pos hU), mul_zero]
        have s2 : Cm.clamp (U.ang * x) (-(U.ang * (j.maxForce * dt))) 0 = U.ang * Cm.clamp x (-(j.maxForce * dt)) 0 := by rw [← clamp_scale (Scales.ang_pos hU), mul_zero, mul_neg]
        have hA := mul_nonneg (Scales.ang_pos hU).le hj
        have sg : j.bias / U.time < 0 ↔ j.bias < 0 :=
          ⟨fun h => by by_contra hn; exact absurd (div_nonneg (not_lt.1 hn) hU.2.2.1.le) (not_le.2 h), fun h => div_neg_of_neg_of_pos h hU.2.2.1⟩
        rcases hU.2.2.2 with h | h
        · simp only [h, one_mul, sg]
          split
          · exact s1
          · exact s2
        · have n1 : Cm.clamp (-(U.ang * x)) 0 (U.ang * (j.maxForce * dt)) = -(U.ang * Cm.clamp x (-(j.maxForce * dt)) 0) := by
            have := clamp_turn (U.ang * x) (lo := -(U.ang * (j.maxForce * dt))) (hi := 0) (by linarith)
            rw [neg_zero, neg_neg] at this
            rw [this, s2]
          have n2 : Cm.clamp (-(U.ang * x)) (-(U.ang * (j.maxForce * dt))) 0 = -(U.ang * Cm.clamp x 0 (j.maxForce * dt)) := by
            have := clamp_turn (U.ang * x) (lo := 0) (hi := U.ang * (j.maxForce * dt)) hA
            rw [neg_zero] at this
            rw [this, s1]
          have sg' : -(j.bias / U.time) < 0 ↔ ¬ j.bias < 0 := by
            rw [neg_lt_zero, not_lt]
            constructor
            · intro h; by_contra hn; exact absurd (sg.2 (not_le.1 hn)) (not_lt.2 h.le)
            · intro h; exact div_pos (lt_of_le_of_ne h (Ne.symm hb)) hU.2.2.1
          simp only [h, neg_one_mul, sg']
          by_cases hn : j.bias < 0
          · rw [if_neg (not_not.2 hn), if_pos hn, n2]
          · rw [if_pos hn, if_neg hn, n1]
      simp only [ew, e, rot1, fold2, torque_dt hU, key, fold3, spin_scales hU]
  | motor j =>
    have e : -(U.hand * (b.w / U.time) - U.hand * (a.w / U.time) + U.hand * (j.rate / U.time)) = U.hand * (-(b.w - a.w + j.rate) / U.time) := by ring
    simp only [Joint.applyImpulse, Scales.joint, Scales.rot, SimpleMotor.applyImpulse, ew, e, rot1, fold2, fold3, torque_dt hU, clamp_hand hU (Scales.ang_pos hU) _ (mul_nonneg h hdt), spin_scales hU]
  | spring j =>
    have e1 : ∀ x y c z : K, (U.vel * x - U.vel * y) * c * (U.mass * z) = U.imp * ((x - y) * c * z) := by
      intro x y c z; simp only [Scales.vel, Scales.imp]; field_simp
    have e2 : ∀ x y c : K, U.vel * y + (U.vel * x - U.vel * y) * c = U.vel * (y + (x - y) * c) := by intro x y c; ring
    simp only [Joint.applyImpulse, Scales.joint, DampedSpring.applyImpulse, normalRelativeVelocity, vr, e1, e2, addI, Scales.vec_scale1, applyImpulses_scales hU]
  | rotarySpring j =>
    have e1 : (U.hand * (j.targetWrn / U.time) - (U.hand * (a.w / U.time) - U.hand * (b.w / U.time))) * j.wCoef = U.hand * ((j.targetWrn - (a.w - b.w)) * j.wCoef / U.time) := by ring
    have e2 : ∀ x : K, U.hand * (a.w / U.time) - U.hand * (b.w / U.time) + U.hand * (x / U.time) = U.hand * ((a.w - b.w + x) / U.time) := by intro x; ring
    simp only [Joint.applyImpulse, Scales.joint, DampedRotarySpring.applyImpulse, ew, e1, rot1, fold2, e2]
    refine Prod.ext ?_ (Prod.ext ?_ rfl)
    · simp only [Scales.body, Body.mk.injEq, true_and, and_true, Scales.moi, Scales.ang]; field_simp
    · simp only [Scales.body, Body.mk.injEq, true_and, and_true, Scales.moi, Scales.ang]; field_simp

omit hU hM hsh
theorem sound_preStep (M : Mth K) (inf dt : K) (jt : Joint K) (h : SoundJoint jt) (a b : Body K) : SoundJoint (jt.preStep M inf a b dt).2.2 := by
  cases jt <;> exact h

theorem sound_applyImpulse (M : Mth K) (dt : K) (jt : Joint K) (h : SoundJoint jt) (a b : Body K) : SoundJoint (jt.applyImpulse M a b dt).2.2 := by
  cases jt with
  | slide j => simp only [Joint.applyImpulse, SlideJoint.applyImpulse]; split <;> exact h
  | ratchet j => simp only [Joint.applyImpulse, RatchetJoint.applyImpulse]; split <;> exact h
  | rotaryLimit j => simp only [Joint.applyImpulse, RotaryLimitJoint.applyImpulse]; split <;> exact h
  | _ => exact h

end helpers

/-! ## Steps -/

namespace Spec
namespace Scales
variable (U : Scales K)
/-- Everything. -/
def state (inf : K) (s : SolverState K) : SolverState K :=
  ⟨fun k => U.body inf (s.bodies k), s.arbs.map (Frame.link U.arb), s.joints.map (Frame.link U.joint)⟩
/-- What the space is set to. -/
def params (par : Params K) : Params K :=
  { inf := par.inf, slop := U.len * par.slop, cbias := U.share par.cbias, damping := U.share par.damping
    gravity := U.vec (U.len / (U.time * U.time)) par.gravity, iterations := par.iterations }
/-- What a step is given. -/
def input (i : StepIn K) : StepIn K := { dt := U.time * i.dt, dyn := i.dyn, arbs := i.arbs.map (Frame.link U.arb) }
/-- Finite masses and times stay finite in the new units. -/
def Finite (inf : K) (b : Body K) : Prop := (b.m = inf ∨ U.mass * b.m ≠ inf) ∧ (b.idle = inf ∨ U.time * b.idle ≠ inf)
/-- The same, for all bodies; the joints make sense, and frictions are not negative. -/
structure Proper (inf : K) (s : SolverState K) : Prop where
  bodies : ∀ k, U.Finite inf (s.bodies k)
  arbs : ∀ l ∈ s.arbs, 0 ≤ l.it.u
  joints : ∀ l ∈ s.joints, SoundJoint l.it
/-- The functions of `math` know nothing of units: a share of what is left after a time is the same share when the time is measured differently, and
turning the other way is turning the other way. -/
structure Fair (M : Mth K) : Prop where
  share : ∀ e t, 0 ≤ e → M.pow (U.share e) (U.time * t) = M.pow e t
  cos : ∀ x, M.cos (U.hand * x) = M.cos x
  sin : ∀ x, M.sin (U.hand * x) = U.hand * M.sin x
end Scales
end Spec

section
variable {U : Scales K} (hU : U.Ok) {inf : K}

theorem linkLoop_map {α : Type} (φ : Body K → Body K) (ψ : α → α) (P : Body K → Prop) (Q : α → Prop)
    (f f' : α → Body K → Body K → Body K × Body K × α)
    (hf : ∀ x a b, Q x → f' (ψ x) (φ a) (φ b) = (φ (f x a b).1, φ (f x a b).2.1, ψ (f x a b).2.2))
    (hP : ∀ x a b, P a → P b → P (f x a b).1 ∧ P (f x a b).2.1) (hQ : ∀ x a b, Q x → Q (f x a b).2.2) :
    ∀ (ls : List (Link α)) (bs : Nat → Body K), (∀ l ∈ ls, Q l.it) → (∀ k, P (bs k)) →
      linkLoop f' (ls.map (Frame.link ψ)) (fun k => φ (bs k)) = (fun k => φ ((linkLoop f ls bs).1 k), (linkLoop f ls bs).2.map (Frame.link ψ)) ∧
      (∀ k, P ((linkLoop f ls bs).1 k)) ∧ (∀ l ∈ (linkLoop f ls bs).2, Q l.it) := by
  intro ls
  induction ls with
  | nil => intro bs _ h2; exact ⟨rfl, h2, by simp [linkLoop]⟩
  | cons l ls ih =>
    intro bs h1 h2
    have q := h1 l List.mem_cons_self
    have e := hf l.it (bs l.ia) (bs l.ib) q
    obtain ⟨p1, p2⟩ := hP l.it _ _ (h2 l.ia) (h2 l.ib)
    have hp : ∀ k, P (putPair bs l.ia l.ib (f l.it (bs l.ia) (bs l.ib)).1 (f l.it (bs l.ia) (bs l.ib)).2.1 k) := by
      intro k
      simp only [putPair]; split_ifs
      · exact p1
      · exact p2
      · exact h2 k
    have hp' : putPair (fun k => φ (bs k)) l.ia l.ib (φ (f l.it (bs l.ia) (bs l.ib)).1) (φ (f l.it (bs l.ia) (bs l.ib)).2.1)
        = fun k => φ (putPair bs l.ia l.ib (f l.it (bs l.ia) (bs l.ib)).1 (f l.it (bs l.ia) (bs l.ib)).2.1 k) := by
      funext k
      simp only [putPair]; split_ifs <;> rfl
    obtain ⟨i1, i2, i3⟩ := ih _ (fun l' hl => h1 l' (List.mem_cons_of_mem _ hl)) hp
    simp only [List.map_cons, linkLoop, Frame.link, e]
    rw [hp', i1]
    refine ⟨rfl, i2, ?_⟩
    intro l' hl
    rcases List.mem_cons.1 hl with rfl | hl
    · exact hQ _ _ _ q
    · exact i3 l' hl

theorem loops_scales (fa fa' : Arbiter K → Body K → Body K → Body K × Body K × Arbiter K) (fj fj' : Joint K → Body K → Body K → Body K × Body K × Joint K)
    (ha : ∀ x a b, 0 ≤ x.u → fa' (U.arb x) (U.body inf a) (U.body inf b) = (U.body inf (fa x a b).1, U.body inf (fa x a b).2.1, U.arb (fa x a b).2.2))
    (hj : ∀ x a b, SoundJoint x → fj' (U.joint x) (U.body inf a) (U.body inf b) = (U.body inf (fj x a b).1, U.body inf (fj x a b).2.1, U.joint (fj x a b).2.2))
    (ea : ∀ x a b, Exchange a b (fa x a b).1 (fa x a b).2.1) (ej : ∀ x a b, Exchange a b (fj x a b).1 (fj x a b).2.1)
    (ia : ∀ x a b, 0 ≤ x.u → 0 ≤ (fa x a b).2.2.u) (ij : ∀ x a b, SoundJoint x → SoundJoint (fj x a b).2.2)
    (s : SolverState K) (hs : U.Proper inf s) :
    (let t := U.state inf s; (⟨(linkLoop fj' t.joints (linkLoop fa' t.arbs t.bodies).1).1, (linkLoop fa' t.arbs t.bodies).2, (linkLoop fj' t.joints (linkLoop fa' t.arbs t.bodies).1).2⟩ : SolverState K))
      = U.state inf ⟨(linkLoop fj s.joints (linkLoop fa s.arbs s.bodies).1).1, (linkLoop fa s.arbs s.bodies).2, (linkLoop fj s.joints (linkLoop fa s.arbs s.bodies).1).2⟩ ∧
    U.Proper inf (⟨(linkLoop fj s.joints (linkLoop fa s.arbs s.bodies).1).1, (linkLoop fa s.arbs s.bodies).2, (linkLoop fj s.joints (linkLoop fa s.arbs s.bodies).1).2⟩ : SolverState K) := by
  obtain ⟨w1, w2, w3⟩ := hs
  have keep : ∀ {a b a' b' : Body K}, Exchange a b a' b' → U.Finite inf a → U.Finite inf b → U.Finite inf a' ∧ U.Finite inf b' := by
    intro a b a' b' e ra rb
    have m1 := e.sameA.masses; have m2 := e.sameB.masses
    simp only [Scales.Finite] at *
    exact ⟨by simpa only [m1] using ra, by simpa only [m2] using rb⟩
  obtain ⟨a1, a2, a3⟩ := linkLoop_map (U.body inf) U.arb (U.Finite inf) (fun x => 0 ≤ x.u) fa fa' ha (fun x a b pa pb => keep (ea x a b) pa pb) ia s.arbs s.bodies w2 w1
  obtain ⟨j1, j2, j3⟩ := linkLoop_map (U.body inf) U.joint (U.Finite inf) SoundJoint fj fj' hj (fun x a b pa pb => keep (ej x a b) pa pb) ij s.joints (linkLoop fa s.arbs s.bodies).1 w3 a2
  refine ⟨?_, ⟨j2, a3, j3⟩⟩
  simp only [Scales.state, a1, j1]

variable {M : Mth K} (hM : M.Lawful) (hF : U.Fair M)
include hU hM

theorem iterate_scales {dt : K} (hdt : 0 ≤ dt) (s : SolverState K) (hs : U.Proper inf s) :
    (U.state inf s).iterate M (U.time * dt) = U.state inf (s.iterate M dt) ∧ U.Proper inf (s.iterate M dt) :=
  loops_scales _ _ _ _ (fun x a b hx => arb_applyImpulse_scales hU inf x hx a b) (fun x a b hx => joint_applyImpulse_scales hU hM inf hdt x hx a b)
    (fun x a b => impulseLoop_exchange _ _ _ _ a b) (fun x a b => C38_iteration M dt x a b) (fun x a b hx => hx) (fun x a b hx => sound_applyImpulse M dt x hx a b) s hs

omit hU hM in
theorem type_scales {b : Body K} (h : U.Finite inf b) : (U.body inf b).type inf = b.type inf := by
  have e1 : (Scales.fin inf U.time b.idle = inf) ↔ b.idle = inf := by
    unfold Scales.fin; split
    · simp_all
    · rename_i hn; rcases h.2 with h | h <;> simp_all
  have e2 : (Scales.fin inf U.mass b.m = inf) ↔ b.m = inf := by
    unfold Scales.fin; split
    · simp_all
    · rename_i hn; rcases h.1 with h | h <;> simp_all
  simp only [Body.type, Scales.body, e1, e2]

omit hM in
theorem updateVelocity_scales {b : Body K} (h : U.Finite inf b) (g : V2 K) (d dt : K) :
    (U.body inf b).updateVelocity inf (U.vec (U.len / (U.time * U.time)) g) d (U.time * dt) = U.body inf (b.updateVelocity inf g d dt) := by
  have h1 := hU.1.ne'; have h2 := hU.2.1.ne'; have h3 := hU.2.2.1.ne'
  unfold Body.updateVelocity
  rw [type_scales h]
  by_cases hk : b.type inf = .kinematic
  · rw [if_pos hk, if_pos hk]
  · rw [if_neg hk, if_neg hk]
    simp only [Scales.body, Scales.vec, V2.add, V2.scale, V2.zero, Scales.vel, Scales.frc, Scales.trq, Scales.moi]
    simp only [Body.mk.injEq, V2.mk.injEq, true_and, and_true, mul_zero]
    refine ⟨?_, ⟨?_, ?_⟩⟩ <;> field_simp

include hF

omit hM in
theorem updatePosition_scales (b : Body K) (dt : K) : (U.body inf b).updatePosition M (U.time * dt) = U.body inf (b.updatePosition M dt) := by
  have h3 := hU.2.2.1.ne'
  have hh := Scales.hand_sq hU
  have ea : U.hand * b.angle + (U.hand * (b.w / U.time) + U.hand * (b.wBias / U.time)) * (U.time * dt) = U.hand * (b.angle + (b.w + b.wBias) * dt) := by field_simp
  have ep : (U.vec U.len b.p).add (((U.vec U.vel b.v).add (U.vec U.vel b.vBias)).scale (U.time * dt)) = U.vec U.len (b.p.add ((b.v.add b.vBias).scale dt)) := by
    simp only [Scales.vec, V2.add, V2.scale, Scales.vel]
    ext
    · simp only; field_simp
    · simp only; field_simp
  simp only [Body.updatePosition, Body.setTransform, Body.mkTransform, Scales.body, ea, ep, hF.cos, hF.sin, Transform.transpose]
  simp only [Scales.tr, Scales.vec, V2.zero]
  simp only [Body.mk.injEq, V2.mk.injEq, Transform.mk.injEq, true_and, and_true, mul_zero, zero_div]
  refine ⟨?_, ?_, ?_⟩
  · ring
  · linear_combination (U.len * b.cog.y * M.sin (b.angle + (b.w + b.wBias) * dt)) * hh
  · ring

/-- **C99** Preparation, new velocities, warm start and iterations in other units. -/
theorem C99_solve (par : Params K) (hc : 0 ≤ par.cbias) (hd : 0 ≤ par.damping) (dyn : List Nat) (prevDT : K) {dt : K} (hdt : 0 ≤ dt) (s : SolverState K) (hs : U.Proper par.inf s) :
    (U.state par.inf s).solve M par.inf (U.params par).slop (U.params par).cbias (U.params par).damping (U.params par).gravity dyn (U.time * prevDT) (U.time * dt) par.iterations
      = U.state par.inf (s.solve M par.inf par.slop par.cbias par.damping par.gravity dyn prevDT dt par.iterations) ∧
    U.Proper par.inf (s.solve M par.inf par.slop par.cbias par.damping par.gravity dyn prevDT dt par.iterations) := by
  have ht := hU.2.2.1.ne'
  unfold SolverState.solve
  simp only [Scales.params]
  obtain ⟨e1, p1⟩ : (U.state par.inf s).preStep M par.inf (U.len * par.slop) (U.share par.cbias) (U.time * dt) = U.state par.inf (s.preStep M par.inf par.slop par.cbias dt) ∧
      U.Proper par.inf (s.preStep M par.inf par.slop par.cbias dt) :=
    loops_scales (fun arb a b => (a, b, arb.preStep a b dt par.slop (1 - M.pow par.cbias dt)))
      (fun arb a b => (a, b, arb.preStep a b (U.time * dt) (U.len * par.slop) (1 - M.pow (U.share par.cbias) (U.time * dt))))
      (fun jt a b => jt.preStep M par.inf a b dt) (fun jt a b => jt.preStep M par.inf a b (U.time * dt))
      (fun x a b _ => by rw [hF.share _ _ hc, preStep_scales hU]) (fun x a b hx => joint_preStep_scales hU hM hF.share par.inf dt x hx a b)
      (fun x a b => Exchange.refl a b) (fun x a b => C38_preStep M par.inf dt x a b) (fun x a b hx => hx) (fun x a b hx => sound_preStep M par.inf dt x hx a b) s hs
  generalize s.preStep M par.inf par.slop par.cbias dt = s1 at *
  have e2 : (U.state par.inf s1).velocities M par.inf (U.share par.damping) (U.vec (U.len / (U.time * U.time)) par.gravity) dyn (U.time * dt)
      = U.state par.inf (s1.velocities M par.inf par.damping par.gravity dyn dt) := by
    simp only [SolverState.velocities, Scales.state, SolverState.mk.injEq, and_true]
    funext k
    split
    · rw [hF.share _ _ hd]; exact updateVelocity_scales hU (p1.bodies k) _ _ _
    · rfl
  have p2 : U.Proper par.inf (s1.velocities M par.inf par.damping par.gravity dyn dt) := by
    refine ⟨fun k => ?_, p1.arbs, p1.joints⟩
    simp only [SolverState.velocities]
    split
    · have := p1.bodies k
      unfold Body.updateVelocity; split <;> exact this
    · exact p1.bodies k
  generalize s1.velocities M par.inf par.damping par.gravity dyn dt = s2 at *
  have ec : (if U.time * prevDT ≠ 0 then U.time * dt / (U.time * prevDT) else 0) = (if prevDT ≠ 0 then dt / prevDT else 0) := by
    simp only [ne_eq, mul_eq_zero, ht, false_or, mul_div_mul_left _ _ ht]
  obtain ⟨e3, p3⟩ : (U.state par.inf s2).cached (U.time * prevDT) (U.time * dt) = U.state par.inf (s2.cached prevDT dt) ∧ U.Proper par.inf (s2.cached prevDT dt) := by
    unfold SolverState.cached
    simp only [ec]
    exact loops_scales (fun arb a b => let t := arb.applyCachedImpulse a b (if prevDT ≠ 0 then dt / prevDT else 0); (t.1, t.2, arb)) _
      (fun jt a b => let t := jt.applyCached a b (if prevDT ≠ 0 then dt / prevDT else 0); (t.1, t.2, jt)) _
      (fun x a b _ => by simp only [arb_cached_scales hU]) (fun x a b _ => by simp only [joint_cached_scales hU])
      (fun x a b => by
        simp only [Arbiter.applyCachedImpulse]; split
        · exact Exchange.refl a b
        · exact cachedLoop_exchange _ _ _ a b)
      (fun x a b => C38_cached x _ a b) (fun x a b hx => hx) (fun x a b hx => hx) s2 p2
  have it : ∀ n (t : SolverState K), U.Proper par.inf t → (SolverState.iterate M (U.time * dt))^[n] (U.state par.inf t) = U.state par.inf ((SolverState.iterate M dt)^[n] t) ∧
      U.Proper par.inf ((SolverState.iterate M dt)^[n] t) := by
    intro n
    induction n with
    | zero => intro t ht; exact ⟨rfl, ht⟩
    | succ n ih =>
      intro t ht
      obtain ⟨q1, q2⟩ := iterate_scales hU hM hdt t ht
      rw [Function.iterate_succ_apply, Function.iterate_succ_apply, q1]
      exact ih _ q2
  rw [e1, e2, e3]
  exact it par.iterations _ p3

/-- **C99** Any number of steps in other units, or in a mirror, are the same steps. -/
theorem C99_steps (par : Params K) (hc : 0 ≤ par.cbias) (hd : 0 ≤ par.damping) (ins : List (StepIn K)) :
    (∀ i ∈ ins, 0 ≤ i.dt ∧ ∀ l ∈ i.arbs, 0 ≤ l.it.u) → ∀ (prevDT : K) (s : SolverState K), U.Proper par.inf s →
      (U.state par.inf s).steps M (U.params par) (ins.map U.input) (U.time * prevDT) = U.state par.inf (s.steps M par ins prevDT) := by
  have ht := hU.2.2.1.ne'
  induction ins with
  | nil => intro _ prevDT s _; rfl
  | cons i ins ih =>
    intro hi prevDT s hs
    obtain ⟨hdt, hl⟩ := hi i List.mem_cons_self
    have e0 : ((U.input i).dt = 0) ↔ i.dt = 0 := by simp [Scales.input, ht]
    have step : (U.state par.inf s).step M (U.params par) (U.time * prevDT) (U.input i) = U.state par.inf (s.step M par prevDT i) ∧ U.Proper par.inf (s.step M par prevDT i) := by
      unfold SolverState.step
      by_cases h0 : i.dt = 0
      · rw [if_pos h0, if_pos (e0.2 h0)]; exact ⟨rfl, hs⟩
      · rw [if_neg h0, if_neg (fun h => h0 (e0.1 h))]
        have ep : ({ (U.state par.inf s).positions M i.dyn (U.time * i.dt) with arbs := i.arbs.map (Frame.link U.arb) } : SolverState K)
            = U.state par.inf { s.positions M i.dyn i.dt with arbs := i.arbs } := by
          simp only [SolverState.positions, Scales.state, SolverState.mk.injEq, true_and, and_true]
          funext k
          split
          · exact updatePosition_scales hU hF _ _
          · rfl
        have pp : U.Proper par.inf { s.positions M i.dyn i.dt with arbs := i.arbs } := by
          refine ⟨fun k => ?_, hl, hs.joints⟩
          simp only [SolverState.positions]
          split
          · exact hs.bodies k
          · exact hs.bodies k
        have := C99_solve hU hM hF par hc hd i.dyn prevDT hdt _ pp
        rw [← ep] at this
        exact this
    simp only [List.map_cons, SolverState.steps]
    rw [step.1, show (if (U.input i).dt = 0 then U.time * prevDT else (U.input i).dt) = U.time * (if i.dt = 0 then prevDT else i.dt) by
      simp only [e0]; split <;> rfl]
    exact ih (fun j hj => hi j (List.mem_cons_of_mem _ hj)) _ _ step.2
end

/-- **C99** Over the real numbers, every choice of units and either hand will do: a share `e` per old unit of time is a share `e ^ (1 / time)` per new one. -/
theorem C99_units (len mass time : ℝ) (h1 : 0 < len) (h2 : 0 < mass) (h3 : 0 < time) (hand : ℝ) (hh : hand = 1 ∨ hand = -1) :
    (⟨len, mass, time, hand, fun e => e ^ (1 / time)⟩ : Scales ℝ).Ok ∧ (⟨len, mass, time, hand, fun e => e ^ (1 / time)⟩ : Scales ℝ).Fair realMth := by
  refine ⟨⟨h1, h2, h3, hh⟩, ⟨?_, ?_, ?_⟩⟩
  · intro e t he
    show (e ^ (1 / time)) ^ (time * t) = e ^ t
    rw [← Real.rpow_mul he]
    congr 1
    have := h3.ne'
    field_simp
  · intro x
    show Real.cos (hand * x) = Real.cos x
    rcases hh with h | h <;> simp [h]
  · intro x
    show Real.sin (hand * x) = hand * Real.sin x
    rcases hh with h | h <;> simp [h]

/-! ## Example -/

/-- Inches, ounces and minutes instead of metres, kilograms and seconds, seen in a mirror. -/
noncomputable def exScales : Scales ℝ := ⟨40, 35, 1 / 60, -1, fun e => e ^ (1 / (1 / 60) : ℝ)⟩
/-- Two bodies that touch and that are held together by a pin and a rotary limit. -/
noncomputable def exRoom : SolverState ℝ :=
  { bodies := fun k => if k = 0 then exRA else exRB
    arbs := [⟨0, 1, ⟨1/2, 1/2, V2.zero, ⟨1, 0⟩, [⟨⟨1/2, 1/4⟩, ⟨-1/2, 1/4⟩, 0, 0, 0, 0, 0, 0, 0, 7⟩], .first, false⟩⟩]
    joints := [⟨0, 1, .pin exPin⟩, ⟨1, 0, .rotaryLimit ⟨⟨10, 1/2, 3⟩, -1, 2, 0, 0, 0⟩⟩] }

example : exScales.Ok ∧ exScales.Fair realMth ∧ exScales.Proper (1000000 : ℝ) exRoom ∧
    (exScales.state 1000000 exRoom).bodies 1 ≠ exRoom.bodies 1 ∧
    ((exScales.state 1000000 exRoom).joints.map fun l => match l.it with | .rotaryLimit j => (j.min, j.max) | _ => (0, 0)) = [(0, 0), (-2, 1)] := by
  obtain ⟨h1, h2⟩ := C99_units 40 35 (1 / 60) (by norm_num) (by norm_num) (by norm_num) (-1) (Or.inr rfl)
  refine ⟨h1, h2, ⟨?_, ?_, ?_⟩, ?_, ?_⟩
  · intro k
    simp only [exRoom]
    split <;> simp only [Scales.Finite, exScales, exRA, exRB, Body.blank] <;> norm_num
  · intro l hl
    simp only [exRoom, List.mem_singleton] at hl
    subst hl; norm_num
  · intro l hl
    simp only [exRoom, List.mem_cons, List.not_mem_nil, or_false] at hl
    rcases hl with rfl | rfl
    · simp only [SoundJoint, exPin]; norm_num
    · simp only [SoundJoint]; norm_num
  · intro h
    have := congrArg (fun b => b.p.x) h
    simp [Scales.state, exRoom, exScales, Scales.body, Scales.vec, exRB] at this
    try norm_num at this
  · simp only [Scales.state, exRoom, List.map_cons, List.map_nil, Frame.link, Scales.joint, exScales]
    norm_num

end Cm
