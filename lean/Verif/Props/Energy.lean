import Verif.Props.JointMomentum
import Verif.Props.JointLimit
import Verif.Props.ShapePoly
/-! # C85: the solver does not create energy -/
set_option linter.unusedSectionVars false
set_option linter.unusedSimpArgs false
set_option linter.unusedVariables false

namespace Cm
open Spec
variable {K : Type} [Field K] [LinearOrder K] [IsStrictOrderedRing K]

namespace Spec
/-- The body has a positive mass whose inverse is stored, or infinite mass and no velocity; the same for the moment and the angular velocity. -/
def Settled (b : Body K) : Prop :=
  0 ≤ b.mInv ∧ 0 ≤ b.iInv ∧ (FiniteMass b ∨ (b.mInv = 0 ∧ b.v = V2.zero)) ∧ (FiniteMoment b ∨ (b.iInv = 0 ∧ b.w = 0))

/-- A change of the velocities of two bodies that does not add energy. -/
structure NoGain (a b a' b' : Body K) : Prop where
  sameA : SameBut a a'
  sameB : SameBut b b'
  settledA : Settled a'
  settledB : Settled b'
  energy : energy2 a' + energy2 b' ≤ energy2 a + energy2 b
end Spec

theorem Spec.NoGain.refl {a b : Body K} (ha : Settled a) (hb : Settled b) : NoGain a b a b := ⟨rfl, rfl, ha, hb, le_refl _⟩

theorem Spec.NoGain.trans {a b a1 b1 a2 b2 : Body K} (h : NoGain a b a1 b1) (h' : NoGain a1 b1 a2 b2) : NoGain a b a2 b2 :=
  ⟨h.sameA.trans h'.sameA, h.sameB.trans h'.sameB, h'.settledA, h'.settledB, h'.energy.trans h.energy⟩

/-- An impulse on one body at offset `r`: velocities, energy. -/
theorem impulse_one (b : Body K) (hb : Settled b) (r j : V2 K) :
    let b' : Body K := { b with v := ⟨b.v.x + j.x * b.mInv, b.v.y + j.y * b.mInv⟩, w := b.w + b.iInv * (r.x * j.y - r.y * j.x) }
    Settled b' ∧ energy2 b' = energy2 b + 2 * (pointVel b r).dot j + (b.mInv * (j.x ^ 2 + j.y ^ 2) + b.iInv * (r.cross j) ^ 2) := by
  obtain ⟨h1, h2, h3, h4⟩ := hb
  refine ⟨⟨h1, h2, ?_, ?_⟩, ?_⟩
  · rcases h3 with h3 | ⟨h3, h3'⟩
    · exact Or.inl h3
    · right
      refine ⟨h3, ?_⟩
      simp only [h3, mul_zero, add_zero]
      exact h3'
  · rcases h4 with h4 | ⟨h4, h4'⟩
    · exact Or.inl h4
    · right
      refine ⟨h4, ?_⟩
      simp only [h4, zero_mul, add_zero]
      exact h4'
  · have e1 : b.m * ((b.v.x + j.x * b.mInv) ^ 2 + (b.v.y + j.y * b.mInv) ^ 2) =
        b.m * (b.v.x ^ 2 + b.v.y ^ 2) + 2 * (b.v.x * j.x + b.v.y * j.y) + b.mInv * (j.x ^ 2 + j.y ^ 2) := by
      rcases h3 with h3 | ⟨h3, h3'⟩
      · unfold FiniteMass at h3
        linear_combination (2 * (b.v.x * j.x + b.v.y * j.y) + b.mInv * (j.x ^ 2 + j.y ^ 2)) * h3
      · rw [h3, h3']
        simp [V2.zero]
    have e2 : b.i * (b.w + b.iInv * (r.x * j.y - r.y * j.x)) ^ 2 =
        b.i * b.w ^ 2 + 2 * b.w * (r.x * j.y - r.y * j.x) + b.iInv * (r.x * j.y - r.y * j.x) ^ 2 := by
      rcases h4 with h4 | ⟨h4, h4'⟩
      · unfold FiniteMoment at h4
        linear_combination (2 * b.w * (r.x * j.y - r.y * j.x) + b.iInv * (r.x * j.y - r.y * j.x) ^ 2) * h4
      · rw [h4, h4']
        simp
    simp only [energy2, e1, e2, pointVel, V2.dot, V2.cross]
    ring

/-- The inverse effective mass of the pair for an impulse `j`, as a square. -/
def Spec.effective (a b : Body K) (r1 r2 j : V2 K) : K :=
  (a.mInv + b.mInv) * (j.x ^ 2 + j.y ^ 2) + a.iInv * (r1.cross j) ^ 2 + b.iInv * (r2.cross j) ^ 2

theorem impulses_energy {a b : Body K} (ha : Settled a) (hb : Settled b) (r1 r2 j : V2 K) :
    Settled (applyImpulses a b r1 r2 j).1 ∧ Settled (applyImpulses a b r1 r2 j).2 ∧
    energy2 (applyImpulses a b r1 r2 j).1 + energy2 (applyImpulses a b r1 r2 j).2 =
      energy2 a + energy2 b + 2 * ((pointVel b r2).sub (pointVel a r1)).dot j + effective a b r1 r2 j := by
  obtain ⟨h1, h2⟩ := impulse_one b hb r2 j
  obtain ⟨h3, h4⟩ := impulse_one a ha r1 ⟨-j.x, -j.y⟩
  refine ⟨h3, h1, ?_⟩
  unfold applyImpulses
  dsimp only at h2 h4 ⊢
  rw [h2, h4]
  simp only [effective, pointVel, V2.dot, V2.sub, V2.cross]
  ring

theorem relativeVelocity_pointVel (a b : Body K) (r1 r2 : V2 K) : relativeVelocity a b r1 r2 = (pointVel b r2).sub (pointVel a r1) := by
  ext <;> simp only [relativeVelocity, pointVel, V2.sub, V2.add, V2.scale, V2.perp] <;> ring

/-- A step along one axis from `x` to a clamped `x + d` goes at most `d`. -/
theorem clamp_short (x d lo hi : K) (h1 : lo ≤ x) (h2 : x ≤ hi) : (clamp (x + d) lo hi - x) ^ 2 ≤ (clamp (x + d) lo hi - x) * d := by
  rw [clamp_eq _ _ _ (h1.trans h2)]
  rcases le_total 0 d with hd | hd
  · have k1 : x ≤ max lo (min (x + d) hi) := le_max_of_le_right (le_min (by linarith) h2)
    have k2 : max lo (min (x + d) hi) ≤ x + d := max_le (by linarith) (min_le_left _ _)
    nlinarith
  · have k1 : max lo (min (x + d) hi) ≤ x := max_le h1 ((min_le_left _ _).trans (by linarith))
    have k2 : x + d ≤ max lo (min (x + d) hi) := by
      rw [min_eq_left (by linarith)]
      exact le_max_right _ _
    nlinarith

theorem max_short (x d : K) (h : 0 ≤ x) : (max (x + d) 0 - x) ^ 2 ≤ (max (x + d) 0 - x) * d := by
  rcases le_total 0 (x + d) with hd | hd
  · rw [max_eq_left hd]
    apply le_of_eq
    ring
  · rw [max_eq_right hd]
    nlinarith

/-- An impulse along an axis `n`, of length at most 1, that does not overshoot takes energy away. -/
theorem axis_noGain {a b : Body K} (ha : Settled a) (hb : Settled b) (r1 r2 n : V2 K) (hn : n.x ^ 2 + n.y ^ 2 ≤ 1) (s d k : K)
    (hk : k = kScalar a b r1 r2 n) (hk0 : 0 ≤ k) (hd : normalRelativeVelocity a b r1 r2 n = -(k * d)) (hs : s ^ 2 ≤ s * d) :
    NoGain a b (applyImpulses a b r1 r2 (n.scale s)).1 (applyImpulses a b r1 r2 (n.scale s)).2 := by
  obtain ⟨h1, h2, h3⟩ := impulses_energy ha hb r1 r2 (n.scale s)
  refine ⟨rfl, rfl, h1, h2, ?_⟩
  rw [h3]
  have e1 : ((pointVel b r2).sub (pointVel a r1)).dot (n.scale s) = s * normalRelativeVelocity a b r1 r2 n := by
    rw [normalRelativeVelocity, relativeVelocity_pointVel]
    simp only [V2.dot, V2.scale]
    ring
  have e2 : effective a b r1 r2 (n.scale s) ≤ k * s ^ 2 := by
    rw [hk]
    have hm : 0 ≤ a.mInv + b.mInv := add_nonneg ha.1 hb.1
    simp only [effective, kScalar, kScalarBody, V2.scale, V2.cross]
    nlinarith [mul_nonneg hm (mul_nonneg (sq_nonneg s) (sub_nonneg.2 hn))]
  rw [e1, hd]
  nlinarith

/-! ## Contacts -/

namespace Spec
/-- The contact is prepared for the two bodies, with no bounce. -/
structure Inelastic (n : V2 K) (a b : Body K) (c : Contact K) : Prop where
  bounce : c.bounce = 0
  jn : 0 ≤ c.jnAcc
  pos : 0 < kScalar a b c.r1 c.r2 n
  mass : c.nMass = 1 / kScalar a b c.r1 c.r2 n
end Spec

theorem bias_settled {a b : Body K} (ha : Settled a) (hb : Settled b) (r1 r2 j : V2 K) :
    NoGain a b (applyBiasImpulses a b r1 r2 j).1 (applyBiasImpulses a b r1 r2 j).2 := ⟨rfl, rfl, ha, hb, le_refl _⟩

/-- One iteration of a contact without bounce never adds energy, with any friction, if the friction accumulated so far is within the new limit. -/
theorem C85_contact_partial {a b : Body K} (ha : Settled a) (hb : Settled b) (n : V2 K) (hn : n.x ^ 2 + n.y ^ 2 = 1) (u : K) (hu : 0 ≤ u) (c : Contact K)
    (hc : Inelastic n a b c) (htpos : 0 < kScalar a b c.r1 c.r2 n.perp) (htm : c.tMass = 1 / kScalar a b c.r1 c.r2 n.perp)
    (hcone : |c.jtAcc| ≤ u * (Arbiter.contactStep n V2.zero u a b c).2.2.jnAcc) :
    NoGain a b (Arbiter.contactStep n V2.zero u a b c).1 (Arbiter.contactStep n V2.zero u a b c).2.1 := by
  unfold Arbiter.contactStep at *
  dsimp only at hcone ⊢
  generalize n.scale (max (c.jBias + _) 0 - c.jBias) = jb
  refine (bias_settled ha hb c.r1 c.r2 jb).trans ?_
  set a1 := (applyBiasImpulses a b c.r1 c.r2 jb).1
  set b1 := (applyBiasImpulses a b c.r1 c.r2 jb).2
  have ha1 : Settled a1 := ha
  have hb1 : Settled b1 := hb
  have hz : (relativeVelocity a b c.r1 c.r2).add V2.zero = relativeVelocity a b c.r1 c.r2 := by
    ext <;> simp [V2.add, V2.zero]
  simp only [hz] at hcone ⊢
  set vrn := (relativeVelocity a b c.r1 c.r2).dot n with hvrn
  set vrt := (relativeVelocity a b c.r1 c.r2).dot n.perp with hvrt
  set dn := -(c.bounce + vrn) * c.nMass with hdn
  set dt := -vrt * c.tMass with hdt
  set s := max (c.jnAcc + dn) 0 - c.jnAcc with hs
  set t := clamp (c.jtAcc + dt) (-(u * max (c.jnAcc + dn) 0)) (u * max (c.jnAcc + dn) 0) - c.jtAcc with ht
  have k1 : s ^ 2 ≤ s * dn := max_short _ _ hc.jn
  have k2 : t ^ 2 ≤ t * dt := clamp_short _ _ _ _ (abs_le.1 hcone).1 (abs_le.1 hcone).2
  set kn := kScalar a b c.r1 c.r2 n with hkn
  set kt := kScalar a b c.r1 c.r2 n.perp with hkt
  have e1 : vrn = -(kn * dn) := by
    have := hc.pos
    rw [hdn, hc.bounce, hc.mass]
    field_simp
    ring
  have e2 : vrt = -(kt * dt) := by
    rw [hdt, htm]
    field_simp
  obtain ⟨h1, h2, h3⟩ := impulses_energy ha1 hb1 c.r1 c.r2 (n.rotate ⟨s, t⟩)
  refine ⟨rfl, rfl, h1, h2, ?_⟩
  rw [h3]
  have e3 : ((pointVel b1 c.r2).sub (pointVel a1 c.r1)).dot (n.rotate ⟨s, t⟩) = s * vrn + t * vrt := by
    rw [hvrn, hvrt, relativeVelocity_pointVel]
    show ((pointVel b c.r2).sub (pointVel a c.r1)).dot (n.rotate ⟨s, t⟩) = _
    simp only [V2.dot, V2.rotate, V2.perp]
    ring
  have hm : 0 ≤ a.mInv + b.mInv := add_nonneg ha.1 hb.1
  have e4 : effective a1 b1 c.r1 c.r2 (n.rotate ⟨s, t⟩) + effective a b c.r1 c.r2 (n.rotate ⟨s, -t⟩) = 2 * (kn * s ^ 2 + kt * t ^ 2) := by
    show effective a b c.r1 c.r2 (n.rotate ⟨s, t⟩) + effective a b c.r1 c.r2 (n.rotate ⟨s, -t⟩) = _
    have hn' : n.y ^ 2 = 1 - n.x ^ 2 := by linarith
    simp only [hkn, hkt, effective, kScalar, kScalarBody, V2.rotate, V2.perp, V2.cross]
    linear_combination (2 * (a.mInv + b.mInv) * (s ^ 2 + t ^ 2)) * hn
  have e5 : 0 ≤ effective a b c.r1 c.r2 (n.rotate ⟨s, -t⟩) := by
    unfold effective
    have := ha.2.1
    have := hb.2.1
    positivity
  rw [e3, e1, e2]
  have p1 := hc.pos.le
  have p2 := htpos.le
  have q1 : kn * s ^ 2 ≤ kn * (s * dn) := mul_le_mul_of_nonneg_left k1 p1
  have q2 : kt * t ^ 2 ≤ kt * (t * dt) := mul_le_mul_of_nonneg_left k2 p2
  have e0 : energy2 a1 + energy2 b1 = energy2 a + energy2 b := rfl
  nlinarith


/-! ## A whole space -/

namespace Spec
/-- An arbiter without friction and bounce, prepared for its bodies. -/
def FrictionlessArb (arb : Arbiter K) (a b : Body K) : Prop :=
  arb.u = 0 ∧ arb.surfaceVr = V2.zero ∧ arb.normal.x ^ 2 + arb.normal.y ^ 2 = 1 ∧
    ∀ c ∈ arb.contacts, Inelastic arb.normal a b c ∧ c.jtAcc = 0 ∧ 0 < kScalar a b c.r1 c.r2 arb.normal.perp ∧
      c.tMass = 1 / kScalar a b c.r1 c.r2 arb.normal.perp

/-- A joint that asks for no correction, prepared for its bodies, with its accumulated impulse within its limit. Pin and slide joints, gears,
stopped motors, and ratchets and rotary limits inside their range. -/
def RestingJoint (dt : K) (jt : Joint K) (a b : Body K) : Prop :=
  match jt with
  | .pin j => j.bias = 0 ∧ |j.jnAcc| ≤ j.maxForce * dt ∧ j.n.x ^ 2 + j.n.y ^ 2 ≤ 1 ∧ 0 < kScalar a b j.r1 j.r2 j.n ∧
      j.nMass = 1 / kScalar a b j.r1 j.r2 j.n
  | .slide j => j.bias = 0 ∧ -(j.maxForce * dt) ≤ j.jnAcc ∧ j.jnAcc ≤ 0 ∧ j.n.x ^ 2 + j.n.y ^ 2 ≤ 1 ∧ 0 < kScalar a b j.r1 j.r2 j.n ∧
      j.nMass = 1 / kScalar a b j.r1 j.r2 j.n
  | .gear j => j.bias = 0 ∧ |j.jAcc| ≤ j.maxForce * dt ∧ 0 < j.ratio ∧ j.ratioInv = 1 / j.ratio ∧ 0 < a.iInv + b.iInv ∧
      j.iSum = 1 / (a.iInv * j.ratioInv + j.ratio * b.iInv)
  | .ratchet j => j.bias = 0
  | .rotaryLimit j => j.bias = 0
  | .motor j => j.rate = 0 ∧ |j.jAcc| ≤ j.maxForce * dt ∧ 0 < a.iInv + b.iInv ∧ j.iSum = 1 / (a.iInv + b.iInv)
  | _ => False

/-- Twice the kinetic energy of bodies `0 .. N-1`. -/
def totalEnergy2 (N : Nat) (bs : Nat → Body K) : K := ∑ k ∈ Finset.range N, energy2 (bs k)
end Spec

theorem inelastic_same {n : V2 K} {a b a' b' : Body K} {c : Contact K} (h : Inelastic n a b c) (ha : SameBut a a') (hb : SameBut b b') :
    Inelastic n a' b' c := by
  have e : kScalar a' b' c.r1 c.r2 n = kScalar a b c.r1 c.r2 n := by
    simp only [kScalar, kScalarBody, ha.masses.2.1, ha.masses.2.2.2.1, hb.masses.2.1, hb.masses.2.2.2.1]
  exact ⟨h.bounce, h.jn, by rw [e]; exact h.pos, by rw [e]; exact h.mass⟩

theorem kScalar_same {a b a' b' : Body K} (ha : SameBut a a') (hb : SameBut b b') (r1 r2 n : V2 K) :
    kScalar a' b' r1 r2 n = kScalar a b r1 r2 n := by
  simp only [kScalar, kScalarBody, ha.masses.2.1, ha.masses.2.2.2.1, hb.masses.2.1, hb.masses.2.2.2.1]

/-- One turn over the contacts of an arbiter. -/
theorem frictionless_loop (n : V2 K) (hn : n.x ^ 2 + n.y ^ 2 = 1) : ∀ (cs : List (Contact K)) (a b : Body K), Settled a → Settled b →
    (∀ c ∈ cs, Inelastic n a b c ∧ c.jtAcc = 0 ∧ 0 < kScalar a b c.r1 c.r2 n.perp ∧ c.tMass = 1 / kScalar a b c.r1 c.r2 n.perp) →
    NoGain a b (Arbiter.impulseLoop n V2.zero 0 cs a b).1 (Arbiter.impulseLoop n V2.zero 0 cs a b).2.1 ∧
    ∀ c ∈ (Arbiter.impulseLoop n V2.zero 0 cs a b).2.2,
      Inelastic n a b c ∧ c.jtAcc = 0 ∧ 0 < kScalar a b c.r1 c.r2 n.perp ∧ c.tMass = 1 / kScalar a b c.r1 c.r2 n.perp := by
  intro cs
  induction cs with
  | nil => intro a b ha hb h; exact ⟨.refl ha hb, by simp [Arbiter.impulseLoop]⟩
  | cons c cs ih =>
    intro a b ha hb h
    obtain ⟨h1, h2, h3, h4⟩ := h c (by simp)
    have step := C85_contact_partial ha hb n hn 0 (le_refl _) c h1 h3 h4 (by rw [h2]; simp)
    obtain ⟨i1, i2⟩ := ih _ _ step.settledA step.settledB (fun c' hc' => by
      obtain ⟨k1, k2, k3, k4⟩ := h c' (by simp [hc'])
      exact ⟨inelastic_same k1 step.sameA step.sameB, k2, by rw [kScalar_same step.sameA step.sameB]; exact k3,
        by rw [kScalar_same step.sameA step.sameB]; exact k4⟩)
    refine ⟨step.trans i1, ?_⟩
    intro c' hc'
    simp only [Arbiter.impulseLoop, List.mem_cons] at hc'
    rcases hc' with rfl | hc'
    · refine ⟨⟨h1.bounce, ?_, h1.pos, h1.mass⟩, ?_, h3, h4⟩
      · simp [Arbiter.contactStep]
      · simp only [Arbiter.contactStep, h2, zero_mul, neg_zero]
        have := clamp_mem (0 + -((relativeVelocity a b c.r1 c.r2).add V2.zero).dot n.perp * c.tMass) (0 : K) 0 (le_refl _)
        exact le_antisymm this.2 this.1
    · obtain ⟨k1, k2, k3, k4⟩ := i2 c' hc'
      refine ⟨⟨k1.bounce, k1.jn, ?_, ?_⟩, k2, ?_, ?_⟩
      · rw [← kScalar_same step.sameA step.sameB]; exact k1.pos
      · rw [← kScalar_same step.sameA step.sameB]; exact k1.mass
      · rw [← kScalar_same step.sameA step.sameB]; exact k3
      · rw [← kScalar_same step.sameA step.sameB]; exact k4

theorem frictionless_arb (arb : Arbiter K) (a b : Body K) (ha : Settled a) (hb : Settled b) (h : FrictionlessArb arb a b) :
    NoGain a b (arb.applyImpulse a b).1 (arb.applyImpulse a b).2.1 ∧ FrictionlessArb (arb.applyImpulse a b).2.2 a b := by
  obtain ⟨h1, h2, h3, h4⟩ := h
  obtain ⟨k1, k2⟩ := frictionless_loop arb.normal h3 arb.contacts a b ha hb h4
  unfold Arbiter.applyImpulse
  rw [h1, h2]
  exact ⟨k1, rfl, rfl, h3, k2⟩

/-- Angular impulses on two bodies, `c` on the first for one on the second. -/
theorem spin_energy {a b : Body K} (ha : Settled a) (hb : Settled b) (j c : K) :
    Settled (spin a b j c).1 ∧ Settled (spin a b j c).2 ∧ energy2 (spin a b j c).1 + energy2 (spin a b j c).2 =
      energy2 a + energy2 b + 2 * j * (b.w - c * a.w) + j ^ 2 * (b.iInv + c ^ 2 * a.iInv) := by
  refine ⟨⟨ha.1, ha.2.1, ha.2.2.1, ?_⟩, ⟨hb.1, hb.2.1, hb.2.2.1, ?_⟩, ?_⟩
  · rcases ha.2.2.2 with h | ⟨h, h'⟩
    · exact Or.inl h
    · exact Or.inr ⟨h, by simp [spin, h, h']⟩
  · rcases hb.2.2.2 with h | ⟨h, h'⟩
    · exact Or.inl h
    · exact Or.inr ⟨h, by simp [spin, h, h']⟩
  · have e1 : a.i * (a.w - j * a.iInv * c) ^ 2 = a.i * a.w ^ 2 - 2 * j * c * a.w + j ^ 2 * c ^ 2 * a.iInv := by
      rcases ha.2.2.2 with h | ⟨h, h'⟩
      · unfold FiniteMoment at h
        linear_combination (-2 * a.w * j * c + j ^ 2 * c ^ 2 * a.iInv) * h
      · rw [h, h']
        ring
    have e2 : b.i * (b.w + j * b.iInv) ^ 2 = b.i * b.w ^ 2 + 2 * j * b.w + j ^ 2 * b.iInv := by
      rcases hb.2.2.2 with h | ⟨h, h'⟩
      · unfold FiniteMoment at h
        linear_combination (2 * b.w * j + j ^ 2 * b.iInv) * h
      · rw [h, h']
        ring
    simp only [energy2, spin, e1, e2]
    ring

theorem resting_joint (M : Mth K) (dt : K) (jt : Joint K) (a b : Body K) (ha : Settled a) (hb : Settled b) (h : RestingJoint dt jt a b) :
    NoGain a b (jt.applyImpulse M a b dt).1 (jt.applyImpulse M a b dt).2.1 ∧ RestingJoint dt (jt.applyImpulse M a b dt).2.2 a b := by
  match jt, h with
  | .pin j, h =>
    obtain ⟨h1, h2, h3, h4, h5⟩ := h
    obtain ⟨l1, l2⟩ := abs_le.1 h2
    have hcl := clamp_mem (j.jnAcc + (j.bias - normalRelativeVelocity a b j.r1 j.r2 j.n) * j.nMass) (-(j.maxForce * dt)) (j.maxForce * dt)
      (l1.trans l2)
    refine ⟨?_, h1, abs_le.2 hcl, h3, h4, h5⟩
    refine axis_noGain ha hb j.r1 j.r2 j.n h3 _ _ _ rfl h4.le ?_ (clamp_short _ _ _ _ l1 l2)
    rw [h1, h5]
    field_simp
    ring
  | .slide j, h =>
    obtain ⟨h1, l1, l2, h3, h4, h5⟩ := h
    simp only [Joint.applyImpulse, SlideJoint.applyImpulse]
    split
    · exact ⟨.refl ha hb, h1, l1, l2, h3, h4, h5⟩
    · have hcl := clamp_mem (j.jnAcc + (j.bias - (relativeVelocity a b j.r1 j.r2).dot j.n) * j.nMass) (-j.maxForce * dt) 0
        (by linarith)
      refine ⟨?_, h1, by linarith [hcl.1], hcl.2, h3, h4, h5⟩
      refine axis_noGain ha hb j.r1 j.r2 j.n h3 _ ((j.bias - (relativeVelocity a b j.r1 j.r2).dot j.n) * j.nMass) _ rfl h4.le ?_
        (clamp_short _ _ _ _ (by linarith) l2)
      rw [h1, h5, normalRelativeVelocity]
      field_simp
      ring
  | .gear j, h =>
    obtain ⟨h1, h2, h3, h4, h5, h6⟩ := h
    obtain ⟨l1, l2⟩ := abs_le.1 h2
    have hcl := clamp_mem (j.jAcc + (j.bias - (b.w * j.ratio - a.w)) * j.iSum) (-(j.maxForce * dt)) (j.maxForce * dt) (l1.trans l2)
    refine ⟨?_, h1, abs_le.2 hcl, h3, h4, h5, h6⟩
    simp only [Joint.applyImpulse, GearJoint.applyImpulse]
    have ks := clamp_short j.jAcc ((j.bias - (b.w * j.ratio - a.w)) * j.iSum) (-(j.maxForce * dt)) (j.maxForce * dt) l1 l2
    set d := (j.bias - (b.w * j.ratio - a.w)) * j.iSum with hd
    set s := clamp (j.jAcc + d) (-(j.maxForce * dt)) (j.maxForce * dt) - j.jAcc with hs
    obtain ⟨q1, q2, q3⟩ := spin_energy ha hb s j.ratioInv
    refine ⟨rfl, rfl, q1, q2, ?_⟩
    rw [q3]
    have hk : 0 < a.iInv * j.ratioInv + j.ratio * b.iInv := by
      rw [h4]
      rcases ha.2.1.eq_or_lt with k | k
      · rw [← k, zero_add] at h5
        rw [← k]
        have := mul_pos h3 h5
        linarith
      · have := mul_pos k (one_div_pos.2 h3)
        have := mul_nonneg h3.le hb.2.1
        linarith
    have hwr : b.w * j.ratio - a.w = -((a.iInv * j.ratioInv + j.ratio * b.iInv) * d) := by
      rw [hd, h1, h6]
      field_simp
      ring
    have hri : 0 < j.ratioInv := by rw [h4]; exact one_div_pos.2 h3
    have hrr : j.ratio * j.ratioInv = 1 := by rw [h4]; field_simp
    have e1 : b.w - j.ratioInv * a.w = j.ratioInv * (b.w * j.ratio - a.w) := by
      linear_combination (-b.w) * hrr
    have e2 : b.iInv + j.ratioInv ^ 2 * a.iInv = j.ratioInv * (a.iInv * j.ratioInv + j.ratio * b.iInv) := by
      linear_combination (-b.iInv) * hrr
    rw [e1, e2, hwr]
    have := mul_le_mul_of_nonneg_left ks (mul_nonneg hri.le hk.le)
    nlinarith [mul_nonneg (mul_nonneg hri.le hk.le) (sq_nonneg s)]
  | .ratchet j, h =>
    have h1 : j.bias = 0 := h
    simp only [Joint.applyImpulse, RatchetJoint.applyImpulse, h1, if_true]
    exact ⟨.refl ha hb, h⟩
  | .rotaryLimit j, h =>
    have h1 : j.bias = 0 := h
    simp only [Joint.applyImpulse, RotaryLimitJoint.applyImpulse, h1, if_true]
    exact ⟨.refl ha hb, h⟩
  | .motor j, h =>
    obtain ⟨h1, h2, h5, h6⟩ := h
    obtain ⟨l1, l2⟩ := abs_le.1 h2
    have hcl := clamp_mem (j.jAcc + -(b.w - a.w + j.rate) * j.iSum) (-(j.maxForce * dt)) (j.maxForce * dt) (l1.trans l2)
    refine ⟨?_, h1, abs_le.2 hcl, h5, h6⟩
    simp only [Joint.applyImpulse, SimpleMotor.applyImpulse]
    have ks := clamp_short j.jAcc (-(b.w - a.w + j.rate) * j.iSum) (-(j.maxForce * dt)) (j.maxForce * dt) l1 l2
    set d := -(b.w - a.w + j.rate) * j.iSum with hd
    set s := clamp (j.jAcc + d) (-(j.maxForce * dt)) (j.maxForce * dt) - j.jAcc with hs
    obtain ⟨q1, q2, q3⟩ := spin_energy ha hb s 1
    refine ⟨rfl, rfl, q1, q2, ?_⟩
    rw [q3]
    have hwr : b.w - 1 * a.w = -((a.iInv + b.iInv) * d) := by
      rw [hd, h1, h6]
      field_simp
      ring
    rw [hwr]
    have := mul_le_mul_of_nonneg_left ks h5.le
    nlinarith [mul_nonneg h5.le (sq_nonneg s)]

theorem resting_same {dt : K} {jt : Joint K} {a b a' b' : Body K} (h : RestingJoint dt jt a b) (ha : SameBut a a') (hb : SameBut b b') :
    RestingJoint dt jt a' b' := by
  have e1 := ha.masses.2.2.2.1
  have e2 := hb.masses.2.2.2.1
  cases jt <;> simp only [RestingJoint, kScalar_same ha hb, e1, e2] at h ⊢ <;> exact h

theorem frictionless_same {arb : Arbiter K} {a b a' b' : Body K} (h : FrictionlessArb arb a b) (ha : SameBut a a') (hb : SameBut b b') :
    FrictionlessArb arb a' b' := by
  obtain ⟨h1, h2, h3, h4⟩ := h
  refine ⟨h1, h2, h3, fun c hc => ?_⟩
  obtain ⟨k1, k2, k3, k4⟩ := h4 c hc
  exact ⟨inelastic_same k1 ha hb, k2, by rw [kScalar_same ha hb]; exact k3, by rw [kScalar_same ha hb]; exact k4⟩

/-- Links join different bodies of the space and are prepared for them. -/
def Spec.LinksReady {α : Type} (Ok : α → Body K → Body K → Prop) (N : Nat) (bs : Nat → Body K) (ls : List (Link α)) : Prop :=
  ∀ l ∈ ls, l.ia < N ∧ l.ib < N ∧ l.ia ≠ l.ib ∧ Ok l.it (bs l.ia) (bs l.ib)

theorem sum_putPair_le (N : Nat) (f : Body K → K) (bs : Nat → Body K) (ia ib : Nat) (a b : Body K)
    (hia : ia < N) (hib : ib < N) (hne : ia ≠ ib) (h : f a + f b ≤ f (bs ia) + f (bs ib)) :
    ∑ k ∈ Finset.range N, f (putPair bs ia ib a b k) ≤ ∑ k ∈ Finset.range N, f (bs k) := by
  have m1 : ia ∈ Finset.range N := Finset.mem_range.2 hia
  have m2 : ib ∈ (Finset.range N).erase ia := Finset.mem_erase.2 ⟨fun e => hne e.symm, Finset.mem_range.2 hib⟩
  rw [← Finset.add_sum_erase _ _ m1, ← Finset.add_sum_erase _ _ m2,
    ← Finset.add_sum_erase (Finset.range N) (fun k => f (bs k)) m1,
    ← Finset.add_sum_erase _ (fun k => f (bs k)) m2]
  have e : ∑ k ∈ ((Finset.range N).erase ia).erase ib, f (putPair bs ia ib a b k)
      = ∑ k ∈ ((Finset.range N).erase ia).erase ib, f (bs k) := by
    apply Finset.sum_congr rfl
    intro k hk
    have h1 := Finset.mem_erase.1 hk
    have h2 := Finset.mem_erase.1 h1.2
    simp [putPair, h1.1, h2.1]
  rw [e]
  simp only [putPair, if_true, if_neg (fun e : ib = ia => hne e.symm)]
  linarith

theorem linkLoop_energy {α : Type} (f : α → Body K → Body K → Body K × Body K × α) (Ok : α → Body K → Body K → Prop)
    (hsame : ∀ x a b a' b', Ok x a b → SameBut a a' → SameBut b b' → Ok x a' b')
    (hf : ∀ x a b, Settled a → Settled b → Ok x a b → NoGain a b (f x a b).1 (f x a b).2.1 ∧ Ok (f x a b).2.2 a b) (N : Nat)
    (ls : List (Link α)) : ∀ bs : Nat → Body K, (∀ k, Settled (bs k)) → LinksReady Ok N bs ls →
    totalEnergy2 N (linkLoop f ls bs).1 ≤ totalEnergy2 N bs ∧ (∀ k, Settled ((linkLoop f ls bs).1 k)) ∧
    (∀ k, SameBut (bs k) ((linkLoop f ls bs).1 k)) ∧ LinksReady Ok N bs (linkLoop f ls bs).2 := by
  induction ls with
  | nil => intro bs hs _; exact ⟨le_refl _, hs, fun _ => rfl, by simp [linkLoop, LinksReady]⟩
  | cons l ls ih =>
    intro bs hs h
    obtain ⟨h1, h2, h3, h4⟩ := h l (by simp)
    obtain ⟨ng, hok⟩ := hf l.it (bs l.ia) (bs l.ib) (hs _) (hs _) h4
    set bs' := putPair bs l.ia l.ib (f l.it (bs l.ia) (bs l.ib)).1 (f l.it (bs l.ia) (bs l.ib)).2.1 with hbs
    have hsm : ∀ k, SameBut (bs k) (bs' k) := by
      intro k
      simp only [hbs, putPair]
      split
      · rename_i e; rw [e]; exact ng.sameA
      · split
        · rename_i e; rw [e]; exact ng.sameB
        · rfl
    have hst : ∀ k, Settled (bs' k) := by
      intro k
      simp only [hbs, putPair]
      split
      · exact ng.settledA
      · split
        · exact ng.settledB
        · exact hs k
    obtain ⟨i1, i2, i3, i4⟩ := ih bs' hst (fun m hm => by
      obtain ⟨g1, g2, g3, g4⟩ := h m (by simp [hm])
      exact ⟨g1, g2, g3, hsame _ _ _ _ _ g4 (hsm _) (hsm _)⟩)
    have hback : ∀ k, SameBut (bs' k) (bs k) := by
      intro k
      have := hsm k
      unfold SameBut at *
      rw [this]
    refine ⟨i1.trans (sum_putPair_le N energy2 bs _ _ _ _ h1 h2 h3 ng.energy), i2, fun k => (hsm k).trans (i3 k), ?_⟩
    intro m hm
    simp only [linkLoop, List.mem_cons] at hm
    rcases hm with rfl | hm
    · exact ⟨h1, h2, h3, hok⟩
    · obtain ⟨g1, g2, g3, g4⟩ := i4 m hm
      exact ⟨g1, g2, g3, hsame _ _ _ _ _ g4 (hback _) (hback _)⟩

/-- **C85** Any number of solver iterations, over any number of frictionless contacts without bounce and resting joints that share bodies in any
way, never raise the total kinetic energy. -/
theorem C85_space_partial (M : Mth K) (dt : K) (N n : Nat) (s : SolverState K) (hs : ∀ k, Settled (s.bodies k))
    (ha : LinksReady FrictionlessArb N s.bodies s.arbs) (hj : LinksReady (RestingJoint dt) N s.bodies s.joints) :
    totalEnergy2 N ((SolverState.iterate M dt)^[n] s).bodies ≤ totalEnergy2 N s.bodies := by
  suffices H : totalEnergy2 N ((SolverState.iterate M dt)^[n] s).bodies ≤ totalEnergy2 N s.bodies ∧
      (∀ k, Settled (((SolverState.iterate M dt)^[n] s).bodies k)) ∧
      LinksReady FrictionlessArb N ((SolverState.iterate M dt)^[n] s).bodies ((SolverState.iterate M dt)^[n] s).arbs ∧
      LinksReady (RestingJoint dt) N ((SolverState.iterate M dt)^[n] s).bodies ((SolverState.iterate M dt)^[n] s).joints from H.1
  induction n with
  | zero => exact ⟨le_refl _, hs, ha, hj⟩
  | succ n ih =>
    rw [Function.iterate_succ_apply']
    obtain ⟨i1, i2, i3, i4⟩ := ih
    set t := (SolverState.iterate M dt)^[n] s
    obtain ⟨a1, a2, a3, a4⟩ := linkLoop_energy (fun arb a b => arb.applyImpulse a b) FrictionlessArb
      (fun x a b a' b' h h1 h2 => frictionless_same h h1 h2) (fun x a b h1 h2 h3 => frictionless_arb x a b h1 h2 h3) N t.arbs t.bodies i2 i3
    have i4' : LinksReady (RestingJoint dt) N (linkLoop (fun arb a b => arb.applyImpulse a b) t.arbs t.bodies).1 t.joints := fun l hl => by
      obtain ⟨g1, g2, g3, g4⟩ := i4 l hl
      exact ⟨g1, g2, g3, resting_same g4 (a3 _) (a3 _)⟩
    obtain ⟨b1, b2, b3, b4⟩ := linkLoop_energy (fun jt a b => jt.applyImpulse M a b dt) (RestingJoint dt)
      (fun x a b a' b' h h1 h2 => resting_same h h1 h2) (fun x a b h1 h2 h3 => resting_joint M dt x a b h1 h2 h3) N t.joints _ a2 i4'
    refine ⟨(b1.trans a1).trans i1, b2, ?_, ?_⟩
    · intro l hl
      obtain ⟨g1, g2, g3, g4⟩ := a4 l hl
      exact ⟨g1, g2, g3, frictionless_same g4 ((a3 _).trans (b3 _)) ((a3 _).trans (b3 _))⟩
    · intro l hl
      obtain ⟨g1, g2, g3, g4⟩ := b4 l hl
      exact ⟨g1, g2, g3, resting_same g4 (b3 _) (b3 _)⟩


/-! ## Restitution -/

theorem contactStep_bodies (n sv : V2 K) (u : K) (a b : Body K) (c : Contact K) : ∃ jb,
    ((Arbiter.contactStep n sv u a b c).1, (Arbiter.contactStep n sv u a b c).2.1) =
      applyImpulses (applyBiasImpulses a b c.r1 c.r2 jb).1 (applyBiasImpulses a b c.r1 c.r2 jb).2 c.r1 c.r2
        (n.rotate ⟨(Arbiter.contactStep n sv u a b c).2.2.jnAcc - c.jnAcc, (Arbiter.contactStep n sv u a b c).2.2.jtAcc - c.jtAcc⟩) := ⟨_, rfl⟩

/-- Two bodies that meet in one frictionless contact with restitution `e`: prepared and solved once they leave with `e` times the speed at which
they met, and lose `1 - e²` of the energy of their approach. -/
theorem C85_restitution (arb : Arbiter K) {a b : Body K} (ha : Settled a) (hb : Settled b) (dt slop bias : K) (c : Contact K)
    (hn : arb.normal.x ^ 2 + arb.normal.y ^ 2 = 1) (he : 0 ≤ arb.e) (hc : c.jnAcc = 0) (hc' : c.jtAcc = 0)
    (hk : 0 < kScalar a b c.r1 c.r2 arb.normal) (happ : (relativeVelocity a b c.r1 c.r2).dot arb.normal ≤ 0) :
    let s := Arbiter.contactStep arb.normal V2.zero 0 a b (arb.preStepContact a b dt slop bias c)
    let v := (relativeVelocity a b c.r1 c.r2).dot arb.normal
    (relativeVelocity s.1 s.2.1 c.r1 c.r2).dot arb.normal = - (arb.e * v) ∧
      energy2 s.1 + energy2 s.2.1 = energy2 a + energy2 b - (1 - arb.e ^ 2) * v ^ 2 / kScalar a b c.r1 c.r2 arb.normal := by
  intro s v
  set n := arb.normal with hnd
  set k := kScalar a b c.r1 c.r2 n with hkd
  set J := -(v * arb.e + v) * (1 / k) with hJ
  have hJ0 : 0 ≤ J := by
    have : 0 ≤ -(v * arb.e + v) := by nlinarith [mul_nonneg he (neg_nonneg.2 happ)]
    exact mul_nonneg this (one_div_pos.2 hk).le
  obtain ⟨jb, hs1⟩ : ∃ jb, (s.1, s.2.1) = applyImpulses (applyBiasImpulses a b c.r1 c.r2 jb).1 (applyBiasImpulses a b c.r1 c.r2 jb).2 c.r1 c.r2
      (n.scale J) := by
    have hz : (relativeVelocity a b c.r1 c.r2).add V2.zero = relativeVelocity a b c.r1 c.r2 := by ext <;> simp [V2.add, V2.zero]
    obtain ⟨jb, h⟩ := contactStep_bodies n V2.zero 0 a b (arb.preStepContact a b dt slop bias c)
    refine ⟨jb, h.trans ?_⟩
    have hcl : ∀ x : K, clamp x 0 0 = 0 := fun x => le_antisymm (clamp_mem x 0 0 (le_refl _)).2 (clamp_mem x 0 0 (le_refl _)).1
    have q1 : (Arbiter.contactStep n V2.zero 0 a b (arb.preStepContact a b dt slop bias c)).2.2.jnAcc = J := by
      simp only [Arbiter.contactStep, Arbiter.preStepContact, hc, hz, zero_add, normalRelativeVelocity]
      rw [← hnd, ← hkd]
      exact max_eq_left hJ0
    have q2 : (Arbiter.contactStep n V2.zero 0 a b (arb.preStepContact a b dt slop bias c)).2.2.jtAcc = 0 := by
      simp only [Arbiter.contactStep, zero_mul, neg_zero]
      exact hcl _
    rw [q1, q2]
    show applyImpulses _ _ c.r1 c.r2 (n.rotate ⟨J - c.jnAcc, 0 - c.jtAcc⟩) = applyImpulses _ _ c.r1 c.r2 (n.scale J)
    rw [hc, hc']
    congr 1
    ext <;> simp only [V2.rotate, V2.scale] <;> ring
  have e1 : s.1 = (applyImpulses (applyBiasImpulses a b c.r1 c.r2 jb).1 (applyBiasImpulses a b c.r1 c.r2 jb).2 c.r1 c.r2 (n.scale J)).1 :=
    congrArg Prod.fst hs1
  have e2 : s.2.1 = (applyImpulses (applyBiasImpulses a b c.r1 c.r2 jb).1 (applyBiasImpulses a b c.r1 c.r2 jb).2 c.r1 c.r2 (n.scale J)).2 :=
    congrArg Prod.snd hs1
  have hkJ : k * J = -(v * arb.e + v) := by rw [hJ]; field_simp
  constructor
  · rw [e1, e2]
    have : (relativeVelocity (applyImpulses (applyBiasImpulses a b c.r1 c.r2 jb).1 (applyBiasImpulses a b c.r1 c.r2 jb).2 c.r1 c.r2 (n.scale J)).1
        (applyImpulses (applyBiasImpulses a b c.r1 c.r2 jb).1 (applyBiasImpulses a b c.r1 c.r2 jb).2 c.r1 c.r2 (n.scale J)).2 c.r1 c.r2).dot n =
        v + k * J := by
      simp only [v, hkd, relativeVelocity, applyImpulses, applyBiasImpulses, kScalar, kScalarBody, V2.dot, V2.sub, V2.add, V2.scale, V2.perp,
        V2.cross]
      linear_combination ((a.mInv + b.mInv) * J) * hn
    rw [this, hkJ]
    ring
  · rw [e1, e2]
    obtain ⟨-, -, h3⟩ := impulses_energy (a := (applyBiasImpulses a b c.r1 c.r2 jb).1) (b := (applyBiasImpulses a b c.r1 c.r2 jb).2) ha hb c.r1 c.r2
      (n.scale J)
    rw [h3]
    have q1 : ((pointVel b c.r2).sub (pointVel a c.r1)).dot (n.scale J) = J * v := by
      simp only [v]
      rw [relativeVelocity_pointVel]
      simp only [V2.dot, V2.scale]
      ring
    have q2 : effective a b c.r1 c.r2 (n.scale J) = k * J ^ 2 := by
      simp only [effective, hkd, kScalar, kScalarBody, V2.scale, V2.cross]
      linear_combination ((a.mInv + b.mInv) * J ^ 2) * hn
    show energy2 a + energy2 b + 2 * ((pointVel b c.r2).sub (pointVel a c.r1)).dot (n.scale J) + effective a b c.r1 c.r2 (n.scale J) = _
    rw [q1, q2]
    have hk' : k ≠ 0 := hk.ne'
    rw [hJ]
    field_simp
    ring

/-! ## Where energy is added -/

/-- A block of mass 1 and moment 1. -/
def exMoving (v : V2 ℚ) : Body ℚ := { (Body.blank : Body ℚ) with m := 1, mInv := 1, i := 1, iInv := 1, v := v }

/-- A groove joint whose sliding anchor moves exactly along the groove: the constraint is met, no correction is asked for, and yet an iteration
pushes the block and adds energy, as the impulse for a pivot is projected on the normal. -/
theorem C85_groove :
    let j : GrooveJoint ℚ :=
      { maxForce := 1000, errorBias := 1, maxBias := 0, grooveN := ⟨0, 1⟩, grooveA := ⟨-10, 1⟩, grooveB := ⟨10, 1⟩, anchorB := ⟨1, 1⟩,
        grooveTn := ⟨0, 1⟩, clamp := 0, r1 := ⟨1, 1⟩, r2 := ⟨1, 1⟩, k := kTensor exFloor (exMoving ⟨3, 0⟩) ⟨1, 1⟩ ⟨1, 1⟩, jAcc := ⟨0, 0⟩, bias := ⟨0, 0⟩ }
    let t := j.applyImpulse gridMth exFloor (exMoving ⟨3, 0⟩) 1
    (relativeVelocity exFloor (exMoving ⟨3, 0⟩) j.r1 j.r2).dot j.grooveTn = 0 ∧ energy2 (exMoving ⟨3, 0⟩) < energy2 t.2.1 := by
  unfold energy2
  decide +kernel

/-- A pivot joint whose force limit acts may add energy. -/
theorem C85_pivot_limit :
    let b : Body ℚ := { (Body.blank : Body ℚ) with m := 1, mInv := 1, i := 1 / 99, iInv := 99, v := ⟨-4, -200⟩ }
    let j : PivotJoint ℚ :=
      { maxForce := 1, errorBias := 1, maxBias := 0, anchorA := ⟨1, 0⟩, anchorB := ⟨1, 0⟩, r1 := ⟨1, 0⟩, r2 := ⟨1, 0⟩,
        k := kTensor exFloor b ⟨1, 0⟩ ⟨1, 0⟩, jAcc := ⟨0, 1⟩, bias := ⟨0, 0⟩ }
    let t := j.applyImpulse toyMth exFloor b 1
    j.jAcc.dot j.jAcc ≤ (j.maxForce * 1) ^ 2 ∧ energy2 b < energy2 t.2.1 := by
  unfold energy2
  decide +kernel

/-- A contact that lets go also gives back its friction, which may add energy: the hypothesis on the accumulated friction in `C85_contact_partial` is
needed. -/
theorem C85_friction_release :
    let c : Contact ℚ := { exContact with r1 := ⟨0, 0⟩, r2 := ⟨0, 0⟩, nMass := 1, tMass := 1, jnAcc := 1/10, jtAcc := 1/10 }
    let b := exMoving ⟨5, 1/10⟩
    let s := Arbiter.contactStep (⟨0, 1⟩ : V2 ℚ) ⟨0, 0⟩ 1 exFloor b c
    |c.jtAcc| ≤ 1 * c.jnAcc ∧ energy2 b < energy2 s.2.1 := by
  unfold energy2
  decide +kernel

/-! ## Examples -/

/-- A block sliding along the floor and into it, a second one joined to it by a pin, and a stopped motor. -/
def exRestingArb : Arbiter ℚ :=
  { e := 0, u := 0, surfaceVr := ⟨0, 0⟩, normal := ⟨0, 1⟩, contacts := [{ exContact with r1 := ⟨1, 0⟩, r2 := ⟨1, -1⟩ }], state := .normal,
    swapped := false }
def exRestingPin : PinJoint ℚ :=
  { maxForce := 10, errorBias := 1, maxBias := 1, anchorA := ⟨0, 0⟩, anchorB := ⟨0, 0⟩, dist := 1, r1 := ⟨0, 0⟩, r2 := ⟨0, 0⟩, n := ⟨0, 1⟩,
    nMass := 1/2, jnAcc := 0, bias := 0 }
def exResting : SolverState ℚ :=
  { bodies := fun k => if k = 0 then exFloor else exMoving ⟨2, -1⟩
    arbs := [⟨0, 1, exRestingArb⟩]
    joints := [⟨1, 2, .pin exRestingPin⟩,
      ⟨1, 2, .motor { maxForce := 10, errorBias := 1, maxBias := 1, rate := 0, iSum := 1/2, jAcc := 0 }⟩] }

/-- It meets the hypotheses of `C85_space_partial` and loses energy. -/
example : (∀ k, Settled (exResting.bodies k)) ∧ LinksReady FrictionlessArb 3 exResting.bodies exResting.arbs ∧
    LinksReady (RestingJoint 1) 3 exResting.bodies exResting.joints ∧
    totalEnergy2 3 ((SolverState.iterate toyMth 1)^[2] exResting).bodies < totalEnergy2 3 exResting.bodies := by
  refine ⟨?_, ?_, ?_, ?_⟩
  · intro k
    unfold exResting
    dsimp only
    split
    · refine ⟨?_, ?_, Or.inr ⟨?_, ?_⟩, Or.inr ⟨?_, ?_⟩⟩ <;> decide +kernel
    · refine ⟨?_, ?_, Or.inl ?_, Or.inl ?_⟩ <;> (try unfold FiniteMass) <;> (try unfold FiniteMoment) <;> decide +kernel
  · intro l hl
    simp only [exResting, List.mem_singleton] at hl
    subst hl
    refine ⟨by decide, by decide, by decide, rfl, rfl, by decide +kernel, ?_⟩
    intro c hc
    simp only [exRestingArb, List.mem_singleton] at hc
    subst hc
    refine ⟨⟨?_, ?_, ?_, ?_⟩, ?_, ?_, ?_⟩ <;> decide +kernel
  · intro l hl
    simp only [exResting, List.mem_cons, List.not_mem_nil, or_false] at hl
    rcases hl with rfl | rfl
    · exact ⟨by decide, by decide, by decide, by unfold RestingJoint; decide +kernel⟩
    · exact ⟨by decide, by decide, by decide, by unfold RestingJoint; decide +kernel⟩
  · unfold totalEnergy2 energy2
    decide +kernel

/-- A block that falls on the floor with restitution one half meets the hypotheses of `C85_restitution`. -/
example : let arb : Arbiter ℚ := { e := 1/2, u := 0, surfaceVr := ⟨0, 0⟩, normal := ⟨0, 1⟩, contacts := [exContact], state := .first, swapped := false }
    Settled exFloor ∧ Settled (exMoving ⟨2, -1⟩) ∧ arb.normal.x ^ 2 + arb.normal.y ^ 2 = 1 ∧ 0 ≤ arb.e ∧ exContact.jnAcc = 0 ∧ exContact.jtAcc = 0 ∧
      0 < kScalar exFloor (exMoving ⟨2, -1⟩) exContact.r1 exContact.r2 arb.normal ∧
      (relativeVelocity exFloor (exMoving ⟨2, -1⟩) exContact.r1 exContact.r2).dot arb.normal < 0 := by
  refine ⟨⟨?_, ?_, Or.inr ⟨?_, ?_⟩, Or.inr ⟨?_, ?_⟩⟩, ⟨?_, ?_, Or.inl ?_, Or.inl ?_⟩, ?_, ?_, ?_, ?_, ?_, ?_⟩ <;> (try unfold FiniteMass) <;>
    (try unfold FiniteMoment) <;> decide +kernel

end Cm
