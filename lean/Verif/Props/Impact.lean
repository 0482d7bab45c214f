import Verif.Props.WorldFloor
/-! # C120: collisions obey the laws of Newton and Coulomb -/
set_option linter.unusedSectionVars false
set_option linter.unusedSimpArgs false
set_option linter.unusedVariables false

namespace Cm
open Spec
variable {K : Type} [Field K] [LinearOrder K] [IsStrictOrderedRing K]

namespace Spec
/-- The laws of Newton and Coulomb for a contact with the friction `u` and the impulses `jn` along the normal and `jt` across it: it only pushes; if it does push, the
bodies leave each other with the speed `away`, and if not they do at least that; friction is within its limit, and is at the limit, against the slip, if there is any. -/
structure NewtonCoulomb (u jn jt away leaving slip : K) : Prop where
  push : 0 ≤ jn
  rebound : 0 < jn → leaving = away
  part : jn = 0 → away ≤ leaving
  cone : |jt| ≤ u * jn
  right : 0 < slip → jt = -(u * jn)
  left : slip < 0 → jt = u * jn

/-- The velocity of the point of contact of `b` as seen from that of `a`, along `m`. -/
def speed (a b : Body K) (r1 r2 m : V2 K) : K :=
  (b.v.x - b.w * r2.y - (a.v.x - a.w * r1.y)) * m.x + (b.v.y + b.w * r2.x - (a.v.y + a.w * r1.x)) * m.y

/-- `b'` has the velocities of `b` after the impulse `j` at `r`. -/
def Kicked (b : Body K) (r j : V2 K) (b' : Body K) : Prop :=
  b'.v = ⟨b.v.x + j.x * b.mInv, b.v.y + j.y * b.mInv⟩ ∧ b'.w = b.w + b.iInv * (r.x * j.y - r.y * j.x)

/-- An impulse along the normal does not turn the bodies: the normal goes through the centre of gravity of each body that can be turned. -/
def Central (a b : Body K) (r1 r2 n : V2 K) : Prop := a.iInv * (r1.x * n.y - r1.y * n.x) = 0 ∧ b.iInv * (r2.x * n.y - r2.y * n.x) = 0

/-- The velocities a body would have after a step if nothing touched it. -/
def coast (M : Mth K) (par : Params K) (dyn : List Nat) (dt : K) (k : Nat) (b : Body K) : Body K :=
  if k ∈ dyn ∧ b.type par.inf ≠ .kinematic then
    { b with v := ⟨b.v.x * M.pow par.damping dt + (par.gravity.x + b.force.x * b.mInv) * dt, b.v.y * M.pow par.damping dt + (par.gravity.y + b.force.y * b.mInv) * dt⟩
             w := b.w * M.pow par.damping dt + b.torque * b.iInv * dt }
  else b

/-- What the laws say of a collision of the bodies `ia` and `ib` with one contact, of which the solver has left `c`: `bs` are the bodies before the step and `bs'` after it. -/
def Lawful (M : Mth K) (par : Params K) (dyn : List Nat) (dt e u : K) (n sv : V2 K) (ia ib : Nat) (bs bs' : Nat → Body K) (c : Contact K) : Prop :=
  NewtonCoulomb u c.jnAcc c.jtAcc (-(e * speed (bs ia) (bs ib) c.r1 c.r2 n)) (speed (bs' ia) (bs' ib) c.r1 c.r2 n)
    (speed (bs' ia) (bs' ib) c.r1 c.r2 n.perp + (sv.x * n.perp.x + sv.y * n.perp.y))

/-- The bodies have got the impulses of the contact, in opposite directions, and nothing else. -/
def Exchanged (M : Mth K) (par : Params K) (dyn : List Nat) (dt : K) (n : V2 K) (ia ib : Nat) (bs bs' : Nat → Body K) (c : Contact K) : Prop :=
  Kicked (coast M par dyn dt ia (bs ia)) c.r1 ⟨-(c.jnAcc * n.x - c.jtAcc * n.y), -(c.jnAcc * n.y + c.jtAcc * n.x)⟩ (bs' ia) ∧
  Kicked (coast M par dyn dt ib (bs ib)) c.r2 ⟨c.jnAcc * n.x - c.jtAcc * n.y, c.jnAcc * n.y + c.jtAcc * n.x⟩ (bs' ib)

/-- The bodies `a` and `b` are pulled apart along `n` by the impulse `x`, with velocities that only serve to take overlaps away. -/
def Pulled (x : K) (n : V2 K) (a b : Body K) : Prop :=
  (a.vBias = ⟨-(x * a.mInv * n.x), -(x * a.mInv * n.y)⟩ ∧ a.wBias = 0) ∧ b.vBias = ⟨x * b.mInv * n.x, x * b.mInv * n.y⟩ ∧ b.wBias = 0

/-- How far the points of contact are past each other along `n`. -/
def past (n : V2 K) (a b : Body K) (c : Contact K) : K := -((c.r2.x - c.r1.x + (b.p.x - a.p.x)) * n.x + (c.r2.y - c.r1.y + (b.p.y - a.p.y)) * n.y)

/-- The bodies are left to be pulled apart so that in the time `dt` the part `1 - cbias ^ dt` of the overlap beyond the allowed one goes. -/
def DrawnApart (M : Mth K) (par : Params K) (dt : K) (n : V2 K) (a b : Body K) (c : Contact K) : Prop :=
  Pulled ((1 - M.pow par.cbias dt) * max 0 (past n a b c - par.slop) / dt / (a.mInv + b.mInv)) n a b

/-- Bodies that do not move have no such velocities before the step. -/
def Unbiased (dyn : List Nat) (ia ib : Nat) (bs : Nat → Body K) : Prop := ∀ k, k = ia ∨ k = ib → k ∉ dyn → (bs k).vBias = ⟨0, 0⟩ ∧ (bs k).wBias = 0
end Spec

theorem speed_approach (a b : Body K) (r1 r2 m : V2 K) : speed a b r1 r2 m = approach a b r1 r2 m := by
  simp only [speed, approach, pointVel]
  try ring

theorem clamp_between {x m : K} (hm : 0 ≤ m) : (clamp x (-m) m = x ∧ |x| ≤ m) ∨ (clamp x (-m) m = m ∧ m ≤ x) ∨ (clamp x (-m) m = -m ∧ x ≤ -m) := by
  unfold clamp
  rcases le_total x (-m) with h | h
  · right; right
    rw [if_neg (not_lt.2 h)]
    exact ⟨min_eq_left (by linarith), h⟩
  · rcases le_total x m with h' | h'
    · left
      exact ⟨by have := clamp_within (abs_le.2 ⟨h, h'⟩); unfold clamp at this; exact this, abs_le.2 ⟨h, h'⟩⟩
    · right; left
      refine ⟨?_, h'⟩
      split_ifs with h1
      · exact min_eq_right h'
      · have : x = -m := le_antisymm (not_lt.1 h1) h
        rw [min_eq_left (by linarith)]; linarith

/-- The normal impulse after one turn of the solver. -/
theorem newton_one {k jn away app : K} (hk : 0 < k) :
    let jn' := max (jn + -(-away + app) * (1 / k)) 0
    0 ≤ jn' ∧ (0 < jn' → app + (jn' - jn) * k = away) ∧ (jn' = 0 → away ≤ app + (jn' - jn) * k) := by
  intro jn'
  have e : -(-away + app) * (1 / k) = (away - app) / k := by ring
  have hj : jn' = max (jn + (away - app) / k) 0 := by simp only [jn', e]
  refine ⟨le_max_right _ _, fun h => ?_, fun h => ?_⟩
  · have : jn' = jn + (away - app) / k := by
      rw [hj]; refine max_eq_left ?_
      by_contra hc
      rw [hj, max_eq_right (not_le.1 hc).le] at h
      exact lt_irrefl _ h
    rw [this]; field_simp; ring
  · rw [h]
    have : jn + (away - app) / k ≤ 0 := by rw [← h, hj]; exact le_max_left _ _
    have h2 : jn * k + (away - app) ≤ 0 := by
      have := mul_le_mul_of_nonneg_right this hk.le
      rw [zero_mul, add_mul, div_mul_cancel₀ _ hk.ne'] at this
      exact this
    linarith

/-- The friction after one turn. -/
theorem coulomb_one {k jt U slip : K} (hk : 0 < k) (hU : 0 ≤ U) :
    let jt' := clamp (jt + -slip * (1 / k)) (-U) U
    |jt'| ≤ U ∧ (0 < slip + (jt' - jt) * k → jt' = -U) ∧ (slip + (jt' - jt) * k < 0 → jt' = U) := by
  intro jt'
  have e : -slip * (1 / k) * k = -slip := by field_simp
  rcases clamp_between (x := jt + -slip * (1 / k)) hU with ⟨h1, h2⟩ | ⟨h1, h2⟩ | ⟨h1, h2⟩
  · have hj : jt' = jt + -slip * (1 / k) := h1
    have h0 : slip + (jt' - jt) * k = 0 := by rw [hj, add_sub_cancel_left, e]; ring
    rw [h0]
    exact ⟨by rw [hj]; exact h2, fun h => absurd h (lt_irrefl _), fun h => absurd h (lt_irrefl _)⟩
  · have hj : jt' = U := h1
    refine ⟨by rw [hj, abs_of_nonneg hU], fun h => ?_, fun _ => hj⟩
    have := mul_le_mul_of_nonneg_right h2 hk.le
    rw [add_mul, e] at this
    rw [hj] at h
    nlinarith
  · have hj : jt' = -U := h1
    refine ⟨by rw [hj, abs_neg, abs_of_nonneg hU], fun _ => hj, fun h => ?_⟩
    have := mul_le_mul_of_nonneg_right h2 hk.le
    rw [add_mul, e] at this
    rw [hj] at h
    nlinarith

theorem central_coupling {a b : Body K} {r1 r2 n : V2 K} (h : Central a b r1 r2 n) : coupling a b r1 r2 n = 0 ∧ coupling a b r1 r2 n.perp = 0 := by
  obtain ⟨h1, h2⟩ := h
  constructor
  · simp only [coupling, V2.cross, V2.dot]
    linear_combination (r1.x * n.x + r1.y * n.y) * h1 + (r2.x * n.x + r2.y * n.y) * h2
  · simp only [coupling, V2.cross, V2.dot, V2.perp]
    linear_combination -(r1.x * n.x + r1.y * n.y) * h1 - (r2.x * n.x + r2.y * n.y) * h2

/-- A contact after `PreStep`, of bodies that are not turned by it. -/
structure Ready (away : K) (n : V2 K) (a b : Body K) (c : Contact K) : Prop where
  central : Central a b c.r1 c.r2 n
  nMass : c.nMass = 1 / kScalar a b c.r1 c.r2 n
  tMass : c.tMass = 1 / kScalar a b c.r1 c.r2 n.perp
  bounce : c.bounce = -away
  pos : 0 < kScalar a b c.r1 c.r2 n
  tpos : 0 < kScalar a b c.r1 c.r2 n.perp

theorem contactStep_law {away : K} {n sv : V2 K} {u : K} {a b : Body K} {c : Contact K} (hn : n.x ^ 2 + n.y ^ 2 = 1) (hsv : sv.x * n.x + sv.y * n.y = 0) (hu : 0 ≤ u) (h : Ready away n a b c) :
    let s := Arbiter.contactStep n sv u a b c
    Ready away n s.1 s.2.1 s.2.2 ∧ s.2.2.r1 = c.r1 ∧ s.2.2.r2 = c.r2 ∧
    NewtonCoulomb u s.2.2.jnAcc s.2.2.jtAcc away (speed s.1 s.2.1 c.r1 c.r2 n) (speed s.1 s.2.1 c.r1 c.r2 n.perp + (sv.x * n.perp.x + sv.y * n.perp.y)) ∧
    Kicked a c.r1 ⟨-((s.2.2.jnAcc - c.jnAcc) * n.x - (s.2.2.jtAcc - c.jtAcc) * n.y), -((s.2.2.jnAcc - c.jnAcc) * n.y + (s.2.2.jtAcc - c.jtAcc) * n.x)⟩ s.1 ∧
    Kicked b c.r2 ⟨(s.2.2.jnAcc - c.jnAcc) * n.x - (s.2.2.jtAcc - c.jtAcc) * n.y, (s.2.2.jnAcc - c.jnAcc) * n.y + (s.2.2.jtAcc - c.jtAcc) * n.x⟩ s.2.1 ∧
    s.1.mInv = a.mInv ∧ s.1.iInv = a.iInv ∧ s.2.1.mInv = b.mInv ∧ s.2.1.iInv = b.iInv := by
  intro s
  obtain ⟨c1, c2⟩ := central_coupling h.central
  have hp : n.perp.x ^ 2 + n.perp.y ^ 2 = 1 := by simp only [V2.perp]; linear_combination hn
  have e1 : s.1.mInv = a.mInv := rfl
  have e2 : s.1.iInv = a.iInv := rfl
  have e3 : s.2.1.mInv = b.mInv := rfl
  have e4 : s.2.1.iInv = b.iInv := rfl
  have eks : ∀ r1 r2 m, kScalar s.1 s.2.1 r1 r2 m = kScalar a b r1 r2 m := fun _ _ _ => rfl
  have hnj : s.2.2.jnAcc = max (c.jnAcc + -(-away + speed a b c.r1 c.r2 n) * (1 / kScalar a b c.r1 c.r2 n)) 0 := by
    have : s.2.2.jnAcc = max (c.jnAcc + -(c.bounce + ((relativeVelocity a b c.r1 c.r2).add sv).dot n) * c.nMass) 0 := rfl
    rw [this, h.bounce, h.nMass]
    have : ((relativeVelocity a b c.r1 c.r2).add sv).dot n = speed a b c.r1 c.r2 n := by
      simp only [relativeVelocity, V2.dot, V2.sub, V2.add, V2.scale, V2.perp, speed]
      linear_combination hsv
    rw [this]
  have htj : s.2.2.jtAcc = clamp (c.jtAcc + -(speed a b c.r1 c.r2 n.perp + (sv.x * n.perp.x + sv.y * n.perp.y)) * (1 / kScalar a b c.r1 c.r2 n.perp)) (-(u * s.2.2.jnAcc)) (u * s.2.2.jnAcc) := by
    have : s.2.2.jtAcc = clamp (c.jtAcc + -(((relativeVelocity a b c.r1 c.r2).add sv).dot n.perp) * c.tMass) (-(u * s.2.2.jnAcc)) (u * s.2.2.jnAcc) := rfl
    rw [this, h.tMass]
    have : ((relativeVelocity a b c.r1 c.r2).add sv).dot n.perp = speed a b c.r1 c.r2 n.perp + (sv.x * n.perp.x + sv.y * n.perp.y) := by
      simp only [relativeVelocity, V2.dot, V2.sub, V2.add, V2.scale, V2.perp, speed]
      ring
    rw [this]
  have ea : s.1.v = ⟨a.v.x + -((s.2.2.jnAcc - c.jnAcc) * n.x - (s.2.2.jtAcc - c.jtAcc) * n.y) * a.mInv, a.v.y + -((s.2.2.jnAcc - c.jnAcc) * n.y + (s.2.2.jtAcc - c.jtAcc) * n.x) * a.mInv⟩ ∧
      s.1.w = a.w + a.iInv * (c.r1.x * -((s.2.2.jnAcc - c.jnAcc) * n.y + (s.2.2.jtAcc - c.jtAcc) * n.x) - c.r1.y * -((s.2.2.jnAcc - c.jnAcc) * n.x - (s.2.2.jtAcc - c.jtAcc) * n.y)) := by
    refine ⟨?_, ?_⟩
    · simp only [s, Arbiter.contactStep, applyImpulses, applyBiasImpulses, V2.rotate, V2.mk.injEq]
      constructor <;> ring
    · simp only [s, Arbiter.contactStep, applyImpulses, applyBiasImpulses, V2.rotate, V2.cross]
      ring
  have eb : s.2.1.v = ⟨b.v.x + ((s.2.2.jnAcc - c.jnAcc) * n.x - (s.2.2.jtAcc - c.jtAcc) * n.y) * b.mInv, b.v.y + ((s.2.2.jnAcc - c.jnAcc) * n.y + (s.2.2.jtAcc - c.jtAcc) * n.x) * b.mInv⟩ ∧
      s.2.1.w = b.w + b.iInv * (c.r2.x * ((s.2.2.jnAcc - c.jnAcc) * n.y + (s.2.2.jtAcc - c.jtAcc) * n.x) - c.r2.y * ((s.2.2.jnAcc - c.jnAcc) * n.x - (s.2.2.jtAcc - c.jtAcc) * n.y)) := by
    refine ⟨?_, ?_⟩
    · simp only [s, Arbiter.contactStep, applyImpulses, applyBiasImpulses, V2.rotate, V2.mk.injEq]
      constructor <;> ring
    · simp only [s, Arbiter.contactStep, applyImpulses, applyBiasImpulses, V2.rotate, V2.cross]
      ring
  generalize s.2.2.jnAcc = jn' at *
  generalize s.2.2.jtAcc = jt' at *
  have l1 : speed s.1 s.2.1 c.r1 c.r2 n = speed a b c.r1 c.r2 n + (jn' - c.jnAcc) * kScalar a b c.r1 c.r2 n := by
    have : speed s.1 s.2.1 c.r1 c.r2 n = speed a b c.r1 c.r2 n + (jn' - c.jnAcc) * kScalar a b c.r1 c.r2 n + (jt' - c.jtAcc) * coupling a b c.r1 c.r2 n := by
      simp only [speed, ea.1, ea.2, eb.1, eb.2, kScalar, kScalarBody, coupling, V2.cross, V2.dot]
      linear_combination (jn' - c.jnAcc) * (a.mInv + b.mInv) * hn
    rw [this, c1, mul_zero, add_zero]
  have l2 : speed s.1 s.2.1 c.r1 c.r2 n.perp = speed a b c.r1 c.r2 n.perp + (jt' - c.jtAcc) * kScalar a b c.r1 c.r2 n.perp := by
    have : speed s.1 s.2.1 c.r1 c.r2 n.perp = speed a b c.r1 c.r2 n.perp + (jt' - c.jtAcc) * kScalar a b c.r1 c.r2 n.perp + (jn' - c.jnAcc) * coupling a b c.r1 c.r2 n := by
      simp only [speed, ea.1, ea.2, eb.1, eb.2, kScalar, kScalarBody, coupling, V2.cross, V2.dot, V2.perp]
      linear_combination (jt' - c.jtAcc) * (a.mInv + b.mInv) * hn
    rw [this, c1, mul_zero, add_zero]
  obtain ⟨q1, q2, q3⟩ := newton_one (jn := c.jnAcc) (away := away) (app := speed a b c.r1 c.r2 n) h.pos
  rw [← hnj] at q1 q2 q3
  obtain ⟨t1, t2, t3⟩ := coulomb_one (jt := c.jtAcc) (slip := speed a b c.r1 c.r2 n.perp + (sv.x * n.perp.x + sv.y * n.perp.y)) h.tpos (mul_nonneg hu q1)
  rw [← htj] at t1 t2 t3
  refine ⟨⟨h.central, h.nMass, h.tMass, h.bounce, h.pos, h.tpos⟩, rfl, rfl, ⟨q1, ?_, ?_, t1, ?_, ?_⟩, ea, eb, e1, e2, e3, e4⟩
  · rw [l1]; exact q2
  · rw [l1]; exact q3
  · intro hs; refine t2 ?_; rw [l2] at hs; linarith
  · intro hs; refine t3 ?_; rw [l2] at hs; linarith

/-- A contact that obeys the laws is left as it is. -/
theorem contactStep_fixed {away : K} {n sv : V2 K} {u : K} {a b : Body K} {c : Contact K} (hn : n.x ^ 2 + n.y ^ 2 = 1) (hsv : sv.x * n.x + sv.y * n.y = 0) (hu : 0 ≤ u) (h : Ready away n a b c)
    (hl : NewtonCoulomb u c.jnAcc c.jtAcc away (speed a b c.r1 c.r2 n) (speed a b c.r1 c.r2 n.perp + (sv.x * n.perp.x + sv.y * n.perp.y))) :
    let s := Arbiter.contactStep n sv u a b c
    s.2.2.jnAcc = c.jnAcc ∧ s.2.2.jtAcc = c.jtAcc ∧ s.1.v = a.v ∧ s.1.w = a.w ∧ s.2.1.v = b.v ∧ s.2.1.w = b.w := by
  intro s
  obtain ⟨-, -, -, -, ka, kb, -⟩ := contactStep_law hn hsv hu h
  have hnj : s.2.2.jnAcc = c.jnAcc := by
    have : s.2.2.jnAcc = max (c.jnAcc + -(c.bounce + ((relativeVelocity a b c.r1 c.r2).add sv).dot n) * c.nMass) 0 := rfl
    have e : ((relativeVelocity a b c.r1 c.r2).add sv).dot n = speed a b c.r1 c.r2 n := by
      simp only [relativeVelocity, V2.dot, V2.sub, V2.add, V2.scale, V2.perp, speed]
      linear_combination hsv
    rw [this, h.bounce, h.nMass, e]
    have hk : (0 : K) ≤ 1 / kScalar a b c.r1 c.r2 n := (div_pos one_pos h.pos).le
    rcases hl.push.eq_or_lt with h0 | h0
    · rw [← h0]
      refine max_eq_right ?_
      have := mul_nonneg (sub_nonneg.2 (hl.part h0.symm)) hk
      linarith
    · rw [hl.rebound h0]
      simp only [neg_add_cancel, neg_zero, zero_mul, add_zero]
      exact max_eq_left h0.le
  have htj : s.2.2.jtAcc = c.jtAcc := by
    have : s.2.2.jtAcc = clamp (c.jtAcc + -(((relativeVelocity a b c.r1 c.r2).add sv).dot n.perp) * c.tMass) (-(u * s.2.2.jnAcc)) (u * s.2.2.jnAcc) := rfl
    have e : ((relativeVelocity a b c.r1 c.r2).add sv).dot n.perp = speed a b c.r1 c.r2 n.perp + (sv.x * n.perp.x + sv.y * n.perp.y) := by
      simp only [relativeVelocity, V2.dot, V2.sub, V2.add, V2.scale, V2.perp, speed]
      ring
    rw [this, h.tMass, hnj, e]
    have hk : (0 : K) < 1 / kScalar a b c.r1 c.r2 n.perp := div_pos one_pos h.tpos
    have hU : 0 ≤ u * c.jnAcc := mul_nonneg hu hl.push
    have hr := hl.right
    have hf := hl.left
    have hc := hl.cone
    generalize speed a b c.r1 c.r2 n.perp + (sv.x * n.perp.x + sv.y * n.perp.y) = z at *
    rcases lt_trichotomy z 0 with hz | hz | hz
    · have hp : 0 < -z * (1 / kScalar a b c.r1 c.r2 n.perp) := mul_pos (by linarith) hk
      rw [hf hz, clamp_eq _ _ _ (by linarith), min_eq_right (by linarith), max_eq_right (by linarith)]
    · rw [hz, neg_zero, zero_mul, add_zero]
      exact clamp_within hc
    · have hp : -z * (1 / kScalar a b c.r1 c.r2 n.perp) < 0 := mul_neg_of_neg_of_pos (by linarith) hk
      rw [hr hz, clamp_eq _ _ _ (by linarith), min_eq_left (by linarith), max_eq_left (by linarith)]
  refine ⟨hnj, htj, ?_, ?_, ?_, ?_⟩
  · rw [show s.1.v = _ from ka.1, hnj, htj]; simp
  · rw [show s.1.w = _ from ka.2, hnj, htj]; simp
  · rw [show s.2.1.v = _ from kb.1, hnj, htj]; simp
  · rw [show s.2.1.w = _ from kb.2, hnj, htj]; simp

/-- One turn of the solver for the velocities that take overlaps away. -/
theorem contactStep_parts {n sv : V2 K} {u x β : K} {a b : Body K} {c : Contact K} (hn : n.x ^ 2 + n.y ^ 2 = 1) (hcen : Central a b c.r1 c.r2 n) (hk : 0 < a.mInv + b.mInv) (hβ : 0 ≤ β)
    (h : Pulled x n a b) (hx : c.jBias = x) (hb : c.bias = β) (hM : c.nMass = 1 / kScalar a b c.r1 c.r2 n) :
    let s := Arbiter.contactStep n sv u a b c
    Pulled (β / (a.mInv + b.mInv)) n s.1 s.2.1 ∧ s.2.2.jBias = β / (a.mInv + b.mInv) ∧ s.2.2.bias = β ∧ s.1.p = a.p ∧ s.2.1.p = b.p := by
  intro s
  obtain ⟨⟨h1, h2⟩, h3, h4⟩ := h
  have hks : kScalar a b c.r1 c.r2 n = a.mInv + b.mInv := by
    simp only [kScalar, kScalarBody, V2.cross]
    linear_combination (c.r1.x * n.y - c.r1.y * n.x) * hcen.1 + (c.r2.x * n.y - c.r2.y * n.x) * hcen.2
  have hj : s.2.2.jBias = β / (a.mInv + b.mInv) := by
    have : s.2.2.jBias = max (c.jBias + (c.bias - ((b.vBias.add (c.r2.perp.scale b.wBias)).sub (a.vBias.add (c.r1.perp.scale a.wBias))).dot n) * c.nMass) 0 := rfl
    rw [this, hx, hb, hM, hks, h1, h2, h3, h4]
    have e : x + (β - (V2.sub (V2.add (⟨x * b.mInv * n.x, x * b.mInv * n.y⟩ : V2 K) (c.r2.perp.scale 0)) (V2.add ⟨-(x * a.mInv * n.x), -(x * a.mInv * n.y)⟩ (c.r1.perp.scale 0))).dot n) * (1 / (a.mInv + b.mInv)) =
        β / (a.mInv + b.mInv) := by
      have : (V2.sub (V2.add (⟨x * b.mInv * n.x, x * b.mInv * n.y⟩ : V2 K) (c.r2.perp.scale 0)) (V2.add ⟨-(x * a.mInv * n.x), -(x * a.mInv * n.y)⟩ (c.r1.perp.scale 0))).dot n = x * (a.mInv + b.mInv) := by
        simp only [V2.sub, V2.add, V2.scale, V2.dot]
        linear_combination x * (a.mInv + b.mInv) * hn
      rw [this]
      field_simp
      ring
    rw [e]
    exact max_eq_left (div_nonneg hβ hk.le)
  refine ⟨⟨⟨?_, ?_⟩, ?_, ?_⟩, hj, hb, rfl, rfl⟩
  · have : s.1.vBias = ⟨a.vBias.x - n.x * (s.2.2.jBias - c.jBias) * a.mInv, a.vBias.y - n.y * (s.2.2.jBias - c.jBias) * a.mInv⟩ := by
      simp only [s, Arbiter.contactStep, applyImpulses, applyBiasImpulses, V2.scale, V2.mk.injEq]
      constructor <;> ring
    rw [this, hj, hx, h1, show s.1.mInv = a.mInv from rfl]
    simp only [V2.mk.injEq]; constructor <;> ring
  · have : s.1.wBias = a.wBias - a.iInv * (c.r1.x * n.y - c.r1.y * n.x) * (s.2.2.jBias - c.jBias) := by
      simp only [s, Arbiter.contactStep, applyImpulses, applyBiasImpulses, V2.scale, V2.cross]
      ring
    rw [this, h2, hcen.1]; ring
  · have : s.2.1.vBias = ⟨b.vBias.x + n.x * (s.2.2.jBias - c.jBias) * b.mInv, b.vBias.y + n.y * (s.2.2.jBias - c.jBias) * b.mInv⟩ := by
      simp only [s, Arbiter.contactStep, applyImpulses, applyBiasImpulses, V2.scale, V2.mk.injEq]
    rw [this, hj, hx, h3, show s.2.1.mInv = b.mInv from rfl]
    simp only [V2.mk.injEq]; constructor <;> ring
  · have : s.2.1.wBias = b.wBias + b.iInv * (c.r2.x * n.y - c.r2.y * n.x) * (s.2.2.jBias - c.jBias) := by
      simp only [s, Arbiter.contactStep, applyImpulses, applyBiasImpulses, V2.scale, V2.cross]
      ring
    rw [this, h4, hcen.2]; ring

/-! ## The solver -/

theorem kicked_add {b b1 b2 : Body K} {r j j' : V2 K} (h : Kicked b r j b1) (hm : b1.mInv = b.mInv) (hi : b1.iInv = b.iInv) (h' : Kicked b1 r j' b2) :
    Kicked b r ⟨j.x + j'.x, j.y + j'.y⟩ b2 := by
  obtain ⟨h1, h2⟩ := h
  obtain ⟨k1, k2⟩ := h'
  refine ⟨?_, ?_⟩
  · rw [k1, h1, hm]; simp only [V2.mk.injEq]; constructor <;> ring
  · rw [k2, h2, hi]; ring

/-- The velocities and masses of a body while the solver works. -/
theorem coast_eq (M : Mth K) (par : Params K) (dyn : List Nat) (dt : K) (k : Nat) (b : Body K) :
    let p := if k ∈ dyn then b.updatePosition M dt else b
    let q := if k ∈ dyn then p.updateVelocity par.inf par.gravity (M.pow par.damping dt) dt else p
    p.v = b.v ∧ p.w = b.w ∧ p.mInv = b.mInv ∧ p.iInv = b.iInv ∧ q.v = (coast M par dyn dt k b).v ∧ q.w = (coast M par dyn dt k b).w ∧ q.mInv = b.mInv ∧ q.iInv = b.iInv ∧
      (coast M par dyn dt k b).mInv = b.mInv ∧ (coast M par dyn dt k b).iInv = b.iInv := by
  dsimp only
  unfold coast
  by_cases h : k ∈ dyn
  · simp only [h, true_and, if_true]
    have ht : (b.updatePosition M dt).type par.inf = b.type par.inf := rfl
    unfold Body.updateVelocity
    rw [ht]
    by_cases hk : b.type par.inf = .kinematic
    · simp only [hk, if_true, ne_eq, not_true, if_false]
      refine ⟨rfl, rfl, rfl, rfl, rfl, rfl, rfl, rfl, ?_⟩
      simp
    · simp only [hk, if_false, ne_eq, not_false_iff, if_true]
      refine ⟨rfl, rfl, rfl, rfl, rfl, rfl, rfl, rfl, ?_⟩
      simp
  · simp [h]

/-- The impulses of the step before are those the solver starts from: the collision is new, or is older and the step is as long as the one before. -/
def Carried (prevDT dt : K) (arb : Arbiter K) (c : Contact K) : Prop :=
  (arb.state = .first ∧ c.jnAcc = 0 ∧ c.jtAcc = 0) ∨ (arb.state ≠ .first ∧ prevDT = dt)

theorem put_one (bs : Nat → Body K) (ia ib : Nat) (a b : Body K) (h : ia ≠ ib) : putPair bs ia ib a b ia = a ∧ putPair bs ia ib a b ib = b := by
  unfold putPair
  exact ⟨if_pos rfl, by rw [if_neg h.symm, if_pos rfl]⟩

/-- One collision with one contact. -/
theorem single {M : Mth K} {par : Params K} {prevDT dt : K} (hdt : dt ≠ 0) (hit : par.iterations ≠ 0) {dyn : List Nat} {bs : Nat → Body K} {ia ib : Nat} (hne : ia ≠ ib)
    {arb : Arbiter K} {c : Contact K} (hc : arb.contacts = [c]) (hn : arb.normal.x ^ 2 + arb.normal.y ^ 2 = 1) (hsv : arb.surfaceVr.x * arb.normal.x + arb.surfaceVr.y * arb.normal.y = 0)
    (hu : 0 ≤ arb.u) (hcen : Central (bs ia) (bs ib) c.r1 c.r2 arb.normal) (hm : 0 ≤ (bs ia).mInv ∧ 0 ≤ (bs ib).mInv ∧ 0 < (bs ia).mInv + (bs ib).mInv)
    (hi : 0 ≤ (bs ia).iInv ∧ 0 ≤ (bs ib).iInv) :
    let s' := (⟨bs, [], []⟩ : SolverState K).step M par prevDT ⟨dt, dyn, [⟨ia, ib, arb⟩]⟩
    ∃ c' : Contact K, s'.arbs = [⟨ia, ib, { arb with contacts := [c'] }⟩] ∧ c'.r1 = c.r1 ∧ c'.r2 = c.r2 ∧
      Lawful M par dyn dt arb.e arb.u arb.normal arb.surfaceVr ia ib bs s'.bodies c' ∧
      (Carried prevDT dt arb c → Exchanged M par dyn dt arb.normal ia ib bs s'.bodies c') ∧
      (Unbiased dyn ia ib bs → 0 < dt → M.pow par.cbias dt ≤ 1 → DrawnApart M par dt arb.normal (s'.bodies ia) (s'.bodies ib) c') := by
  intro s'
  obtain ⟨e, u, sv, n, cs, st, sw⟩ := arb
  dsimp only at hc hn hsv hu hcen
  subst hc
  obtain ⟨pa1, pa2, pa3, pa4, qa1, qa2, qa3, qa4, fa3, fa4⟩ := coast_eq M par dyn dt ia (bs ia)
  obtain ⟨pb1, pb2, pb3, pb4, qb1, qb2, qb3, qb4, fb3, fb4⟩ := coast_eq M par dyn dt ib (bs ib)
  have hs' : s' = (SolverState.iterate M dt)^[par.iterations] (((SolverState.preStep M par.inf par.slop par.cbias dt
      ⟨fun k => if k ∈ dyn then (bs k).updatePosition M dt else bs k, [⟨ia, ib, ⟨e, u, sv, n, [c], st, sw⟩⟩], []⟩).velocities M par.inf par.damping par.gravity dyn dt).cached prevDT dt) := by
    show SolverState.step _ _ _ _ _ = _
    unfold SolverState.step
    rw [if_neg hdt]
    rfl
  generalize hps : (fun k => if k ∈ dyn then (bs k).updatePosition M dt else bs k) = ps at hs'
  have hpa : ps ia = if ia ∈ dyn then (bs ia).updatePosition M dt else bs ia := by rw [← hps]
  have hpb : ps ib = if ib ∈ dyn then (bs ib).updatePosition M dt else bs ib := by rw [← hps]
  rw [← hpa] at pa1 pa2 pa3 pa4 qa1 qa2 qa3 qa4
  rw [← hpb] at pb1 pb2 pb3 pb4 qb1 qb2 qb3 qb4
  generalize hq : Arbiter.preStepContact ⟨e, u, sv, n, [c], st, sw⟩ (ps ia) (ps ib) dt par.slop (1 - M.pow par.cbias dt) c = q at *
  have hpre : (SolverState.preStep M par.inf par.slop par.cbias dt ⟨ps, [⟨ia, ib, ⟨e, u, sv, n, [c], st, sw⟩⟩], []⟩ : SolverState K) = ⟨ps, [⟨ia, ib, ⟨e, u, sv, n, [q], st, sw⟩⟩], []⟩ := by
    simp only [SolverState.preStep, linkLoop, putPair_back, Arbiter.preStep, List.map_cons, List.map_nil, hq]
  have q1 : q.r1 = c.r1 := by rw [← hq]; rfl
  have q2 : q.r2 = c.r2 := by rw [← hq]; rfl
  have q3 : q.jnAcc = c.jnAcc := by rw [← hq]; rfl
  have q4 : q.jtAcc = c.jtAcc := by rw [← hq]; rfl
  generalize hvs : (fun k => if k ∈ dyn then (ps k).updateVelocity par.inf par.gravity (M.pow par.damping dt) dt else ps k) = vs
  have hva : vs ia = if ia ∈ dyn then (ps ia).updateVelocity par.inf par.gravity (M.pow par.damping dt) dt else ps ia := by rw [← hvs]
  have hvb : vs ib = if ib ∈ dyn then (ps ib).updateVelocity par.inf par.gravity (M.pow par.damping dt) dt else ps ib := by rw [← hvs]
  rw [← hva] at qa1 qa2 qa3 qa4
  rw [← hvb] at qb1 qb2 qb3 qb4
  have hvel : (SolverState.velocities M par.inf par.damping par.gravity dyn dt ⟨ps, [⟨ia, ib, ⟨e, u, sv, n, [q], st, sw⟩⟩], []⟩ : SolverState K) = ⟨vs, [⟨ia, ib, ⟨e, u, sv, n, [q], st, sw⟩⟩], []⟩ := by
    rw [← hvs]; rfl
  -- the impulses of the step before
  have hcach : ∃ cs : Nat → Body K, (SolverState.cached prevDT dt ⟨vs, [⟨ia, ib, ⟨e, u, sv, n, [q], st, sw⟩⟩], []⟩ : SolverState K) = ⟨cs, [⟨ia, ib, ⟨e, u, sv, n, [q], st, sw⟩⟩], []⟩ ∧
      (cs ia).mInv = (vs ia).mInv ∧ (cs ia).iInv = (vs ia).iInv ∧ (cs ib).mInv = (vs ib).mInv ∧ (cs ib).iInv = (vs ib).iInv ∧
      (((cs ia).p = (vs ia).p ∧ (cs ia).vBias = (vs ia).vBias ∧ (cs ia).wBias = (vs ia).wBias) ∧ (cs ib).p = (vs ib).p ∧ (cs ib).vBias = (vs ib).vBias ∧ (cs ib).wBias = (vs ib).wBias) ∧
      (Carried prevDT dt ⟨e, u, sv, n, [c], st, sw⟩ c →
        Kicked (vs ia) q.r1 ⟨-(q.jnAcc * n.x - q.jtAcc * n.y), -(q.jnAcc * n.y + q.jtAcc * n.x)⟩ (cs ia) ∧
        Kicked (vs ib) q.r2 ⟨q.jnAcc * n.x - q.jtAcc * n.y, q.jnAcc * n.y + q.jtAcc * n.x⟩ (cs ib)) := by
    by_cases h1 : st = .first
    · refine ⟨vs, ?_, rfl, rfl, rfl, rfl, ⟨⟨rfl, rfl, rfl⟩, rfl, rfl, rfl⟩, ?_⟩
      · simp only [SolverState.cached, linkLoop, Arbiter.applyCachedImpulse, h1, if_true, putPair_back]
      · rintro (⟨-, h2, h3⟩ | ⟨h2, -⟩)
        · rw [q3, q4, h2, h3]; constructor <;> constructor <;> simp
        · exact absurd h1 h2
    · generalize hk : (if prevDT ≠ 0 then dt / prevDT else 0) = k
      refine ⟨putPair vs ia ib (applyImpulses (vs ia) (vs ib) q.r1 q.r2 ((n.rotate ⟨q.jnAcc, q.jtAcc⟩).scale k)).1 (applyImpulses (vs ia) (vs ib) q.r1 q.r2 ((n.rotate ⟨q.jnAcc, q.jtAcc⟩).scale k)).2, ?_, ?_⟩
      · simp only [SolverState.cached, linkLoop, Arbiter.applyCachedImpulse, h1, if_false, Arbiter.cachedLoop, hk]
      · rw [(put_one _ _ _ _ _ hne).1, (put_one _ _ _ _ _ hne).2]
        refine ⟨rfl, rfl, rfl, rfl, ⟨⟨rfl, rfl, rfl⟩, rfl, rfl, rfl⟩, ?_⟩
        rintro (⟨h2, -⟩ | ⟨-, h2⟩)
        · exact absurd h2 h1
        · have : k = 1 := by rw [← hk, h2, if_pos hdt, div_self hdt]
          rw [this]
          constructor <;> constructor
          all_goals simp only [applyImpulses, V2.rotate, V2.scale, V2.cross, mul_one, V2.mk.injEq]
          · constructor <;> ring
          · ring
          · constructor <;> ring
          · ring
  obtain ⟨cs, hcs, ca3, ca4, cb3, cb4, ⟨⟨cap, cav, caw⟩, cbp, cbv, cbw⟩, hkick⟩ := hcach
  generalize haw : -(e * speed (bs ia) (bs ib) c.r1 c.r2 n) = away
  have kpos : ∀ r1 r2 m : V2 K, m.x ^ 2 + m.y ^ 2 = 1 → 0 < kScalar (cs ia) (cs ib) r1 r2 m := by
    intro r1 r2 m _
    simp only [kScalar, kScalarBody, ca3, ca4, cb3, cb4, qa3, qa4, qb3, qb4]
    have h1 := mul_nonneg hi.1 (mul_self_nonneg (r1.cross m))
    have h2 := mul_nonneg hi.2 (mul_self_nonneg (r2.cross m))
    have := hm.2.2
    nlinarith
  have kk : ∀ r1 r2 m : V2 K, kScalar (ps ia) (ps ib) r1 r2 m = kScalar (cs ia) (cs ib) r1 r2 m := by
    intro r1 r2 m
    simp only [kScalar, kScalarBody, ca3, ca4, cb3, cb4, qa3, qa4, qb3, qb4, pa3, pa4, pb3, pb4]
  have hp : n.perp.x ^ 2 + n.perp.y ^ 2 = 1 := by simp only [V2.perp]; linear_combination hn
  have hready : Ready away n (cs ia) (cs ib) q := by
    refine ⟨?_, ?_, ?_, ?_, kpos _ _ _ hn, kpos _ _ _ hp⟩
    · unfold Central
      rw [ca4, cb4, qa4, qb4, q1, q2]; exact hcen
    · rw [q1, q2, ← kk, ← hq]; rfl
    · rw [q1, q2, ← kk, ← hq]; rfl
    · rw [← hq, ← haw]
      simp only [Arbiter.preStepContact, normalRelativeVelocity_eq, ← speed_approach, neg_neg]
      simp only [speed, pa1, pa2, pb1, pb2]
      ring
  -- the iterations
  have hone : ∀ (zs : Nat → Body K) (d : Contact K), (SolverState.iterate M dt ⟨zs, [⟨ia, ib, ⟨e, u, sv, n, [d], st, sw⟩⟩], []⟩ : SolverState K) =
      ⟨putPair zs ia ib (Arbiter.contactStep n sv u (zs ia) (zs ib) d).1 (Arbiter.contactStep n sv u (zs ia) (zs ib) d).2.1,
        [⟨ia, ib, ⟨e, u, sv, n, [(Arbiter.contactStep n sv u (zs ia) (zs ib) d).2.2], st, sw⟩⟩], []⟩ := by
    intro zs d
    simp only [SolverState.iterate, linkLoop, Arbiter.applyImpulse, Arbiter.impulseLoop]
  have place : ∀ k, (ps k).p = (vs k).p ∧ (k ∈ dyn → (vs k).vBias = ⟨0, 0⟩ ∧ (vs k).wBias = 0) ∧ (k ∉ dyn → vs k = bs k) := by
    intro k
    rw [← hvs, ← hps]
    dsimp only
    split
    · rename_i hk
      refine ⟨?_, fun _ => ?_, fun h => absurd hk h⟩
      · unfold Body.updateVelocity; split <;> rfl
      · unfold Body.updateVelocity; split <;> exact ⟨rfl, rfl⟩
    · rename_i hk
      exact ⟨rfl, fun h => absurd h hk, fun _ => rfl⟩
  generalize hbeta : (1 - M.pow par.cbias dt) * max 0 (past n (ps ia) (ps ib) c - par.slop) / dt = β
  have hqb : q.bias = β ∧ q.jBias = 0 := by
    rw [← hq, ← hbeta]
    refine ⟨?_, rfl⟩
    have e1 : ∀ z : K, -min 0 (z + par.slop) = max 0 (-z - par.slop) := by
      intro z
      rcases le_total (z + par.slop) 0 with h | h
      · rw [min_eq_right h, max_eq_right (by linarith)]; ring
      · rw [min_eq_left h, max_eq_left (by linarith), neg_zero]
    simp only [Arbiter.preStepContact]
    rw [neg_mul_comm, e1]
    simp only [past, V2.sub, V2.add, V2.dot]
  have startB : Unbiased dyn ia ib bs → Pulled 0 n (cs ia) (cs ib) := by
    intro hub
    have z : ∀ k, k = ia ∨ k = ib → (vs k).vBias = ⟨0, 0⟩ ∧ (vs k).wBias = 0 := by
      intro k hk
      by_cases hd : k ∈ dyn
      · exact (place k).2.1 hd
      · rw [(place k).2.2 hd]; exact hub k hk hd
    refine ⟨⟨?_, by rw [caw, (z ia (.inl rfl)).2]⟩, ?_, by rw [cbw, (z ib (.inr rfl)).2]⟩
    · rw [cav, (z ia (.inl rfl)).1]; simp
    · rw [cbv, (z ib (.inr rfl)).1]; simp
  have hsum : (cs ia).mInv + (cs ib).mInv = (bs ia).mInv + (bs ib).mInv := by rw [ca3, cb3, qa3, qb3]
  have hone' : ∀ (zs : Nat → Body K) (d : Contact K), (zs ia).mInv = (cs ia).mInv ∧ (zs ib).mInv = (cs ib).mInv → Ready away n (zs ia) (zs ib) d → d.bias = β → 0 ≤ β →
      Pulled d.jBias n (zs ia) (zs ib) → Pulled (β / ((cs ia).mInv + (cs ib).mInv)) n (Arbiter.contactStep n sv u (zs ia) (zs ib) d).1 (Arbiter.contactStep n sv u (zs ia) (zs ib) d).2.1 ∧
        (Arbiter.contactStep n sv u (zs ia) (zs ib) d).2.2.jBias = β / ((cs ia).mInv + (cs ib).mInv) := by
    intro zs d hz hr hd hb hpul
    have := contactStep_parts (sv := sv) (u := u) hn hr.central (by rw [hz.1, hz.2, hsum]; exact hm.2.2) hb hpul rfl hd hr.nMass
    rw [hz.1, hz.2] at this
    exact ⟨this.1, this.2.1⟩
  have inv : ∀ k, ∃ (zs : Nat → Body K) (d : Contact K), ((SolverState.iterate M dt)^[k + 1] ⟨cs, [⟨ia, ib, ⟨e, u, sv, n, [q], st, sw⟩⟩], []⟩ : SolverState K) =
      ⟨zs, [⟨ia, ib, ⟨e, u, sv, n, [d], st, sw⟩⟩], []⟩ ∧ Ready away n (zs ia) (zs ib) d ∧ d.r1 = c.r1 ∧ d.r2 = c.r2 ∧
      NewtonCoulomb u d.jnAcc d.jtAcc away (speed (zs ia) (zs ib) d.r1 d.r2 n) (speed (zs ia) (zs ib) d.r1 d.r2 n.perp + (sv.x * n.perp.x + sv.y * n.perp.y)) ∧
      Kicked (cs ia) c.r1 ⟨-((d.jnAcc - q.jnAcc) * n.x - (d.jtAcc - q.jtAcc) * n.y), -((d.jnAcc - q.jnAcc) * n.y + (d.jtAcc - q.jtAcc) * n.x)⟩ (zs ia) ∧
      Kicked (cs ib) c.r2 ⟨(d.jnAcc - q.jnAcc) * n.x - (d.jtAcc - q.jtAcc) * n.y, (d.jnAcc - q.jnAcc) * n.y + (d.jtAcc - q.jtAcc) * n.x⟩ (zs ib) ∧
      (((zs ia).mInv = (cs ia).mInv ∧ (zs ib).mInv = (cs ib).mInv) ∧ (zs ia).p = (cs ia).p ∧ (zs ib).p = (cs ib).p) ∧ d.bias = β ∧
      (Unbiased dyn ia ib bs → 0 ≤ β → Pulled (β / ((cs ia).mInv + (cs ib).mInv)) n (zs ia) (zs ib) ∧ d.jBias = β / ((cs ia).mInv + (cs ib).mInv)) := by
    intro k
    induction k with
    | zero =>
      obtain ⟨l1, l2, l3, l4, l5, l6, -⟩ := contactStep_law hn hsv hu hready
      refine ⟨_, _, hone cs q, ?_⟩
      rw [(put_one _ _ _ _ _ hne).1, (put_one _ _ _ _ _ hne).2]
      refine ⟨l1, l2.trans q1, l3.trans q2, ?_, ?_, ?_, ⟨⟨rfl, rfl⟩, rfl, rfl⟩, hqb.1, fun hub hb => hone' cs q ⟨rfl, rfl⟩ hready hqb.1 hb (by rw [hqb.2]; exact startB hub)⟩
      · rw [l2, l3]; exact l4
      · rw [← q1]; exact l5
      · rw [← q2]; exact l6
    | succ k ih =>
      obtain ⟨zs, d, h1, h2, h3, h4, h5, h6, h7, ⟨h8, h9, h10⟩, h11, h12⟩ := ih
      rw [Function.iterate_succ_apply', h1, hone]
      obtain ⟨l1, l2, l3, l4, -⟩ := contactStep_law hn hsv hu h2
      obtain ⟨f1, f2, f3, f4, f5, f6⟩ := contactStep_fixed hn hsv hu h2 h5
      refine ⟨_, _, rfl, ?_⟩
      rw [(put_one _ _ _ _ _ hne).1, (put_one _ _ _ _ _ hne).2]
      refine ⟨l1, l2.trans h3, l3.trans h4, ?_, ?_, ?_, ⟨h8, h9, h10⟩, h11, fun hub hb => hone' zs d h8 h2 h11 hb (by rw [(h12 hub hb).2]; exact (h12 hub hb).1)⟩
      · rw [l2, l3]; exact l4
      · unfold Kicked; rw [f1, f2, f3, f4]; exact h6
      · unfold Kicked; rw [f1, f2, f5, f6]; exact h7
  obtain ⟨k, hk⟩ := Nat.exists_eq_succ_of_ne_zero hit
  obtain ⟨zs, d, h1, -, h3, h4, h5, h6, h7, ⟨⟨h8, h8'⟩, h9, h10⟩, -, h12⟩ := inv k
  rw [hpre, hvel, hcs, hk, h1] at hs'
  rw [hs']
  refine ⟨d, rfl, h3, h4, ?_, fun hcar => ?_, fun hub hdt hpow => ?_⟩
  · unfold Lawful
    dsimp only
    rw [h3, h4, haw, ← h3, ← h4]; exact h5
  · obtain ⟨k1, k2⟩ := hkick hcar
    rw [q1] at k1
    rw [q2] at k2
    have r1 := kicked_add k1 ca3 ca4 h6
    have r2 := kicked_add k2 cb3 cb4 h7
    unfold Exchanged
    dsimp only
    rw [h3, h4]
    constructor
    · unfold Kicked at r1 ⊢
      rw [fa3, fa4, ← qa1, ← qa2, r1.1, r1.2, qa3, qa4]
      refine ⟨?_, by ring⟩
      simp only [V2.mk.injEq]; constructor <;> ring
    · unfold Kicked at r2 ⊢
      rw [fb3, fb4, ← qb1, ← qb2, r2.1, r2.2, qb3, qb4]
      refine ⟨?_, by ring⟩
      simp only [V2.mk.injEq]; constructor <;> ring
  · have hb : 0 ≤ β := by
      rw [← hbeta]
      exact div_nonneg (mul_nonneg (by linarith) (le_max_left _ _)) hdt.le
    have := (h12 hub hb).1
    unfold DrawnApart
    dsimp only
    have ho : past n (zs ia) (zs ib) d = past n (ps ia) (ps ib) c := by
      unfold past
      rw [h3, h4, h9, h10, cap, cbp, (place ia).1, (place ib).1]
    rw [ho, hbeta, h8, h8']
    exact this

/-- A collision with one contact whose bodies nothing else holds, among whatever else. -/
theorem isolated {M : Mth K} {par : Params K} {prevDT dt : K} (hdt : dt ≠ 0) (hit : par.iterations ≠ 0) {dyn : List Nat} {bs : Nat → Body K} {ia ib : Nat} (hne : ia ≠ ib)
    {arb : Arbiter K} {c : Contact K} (hc : arb.contacts = [c]) (hn : arb.normal.x ^ 2 + arb.normal.y ^ 2 = 1) (hsv : arb.surfaceVr.x * arb.normal.x + arb.surfaceVr.y * arb.normal.y = 0)
    (hu : 0 ≤ arb.u) (hcen : Central (bs ia) (bs ib) c.r1 c.r2 arb.normal) (hm : 0 ≤ (bs ia).mInv ∧ 0 ≤ (bs ib).mInv ∧ 0 < (bs ia).mInv + (bs ib).mInv)
    (hi : 0 ≤ (bs ia).iInv ∧ 0 ≤ (bs ib).iInv) {arbs : List (Link (Arbiter K))} {joints : List (Link (Joint K))}
    (ha : Sealed (fun k => k == ia || k == ib) bs arbs) (ha1 : arbs.filter (within fun k => k == ia || k == ib) = [⟨ia, ib, arb⟩])
    (hj : Sealed (fun k => k == ia || k == ib) bs joints) (hj1 : joints.filter (within fun k => k == ia || k == ib) = []) :
    let s' := (⟨bs, [], joints⟩ : SolverState K).step M par prevDT ⟨dt, dyn, arbs⟩
    ∃ c' : Contact K, (⟨ia, ib, { arb with contacts := [c'] }⟩ : Link (Arbiter K)) ∈ s'.arbs ∧ c'.r1 = c.r1 ∧ c'.r2 = c.r2 ∧
      Lawful M par dyn dt arb.e arb.u arb.normal arb.surfaceVr ia ib bs s'.bodies c' ∧
      (Carried prevDT dt arb c → Exchanged M par dyn dt arb.normal ia ib bs s'.bodies c') ∧
      (Unbiased dyn ia ib bs → 0 < dt → M.pow par.cbias dt ≤ 1 → DrawnApart M par dt arb.normal (s'.bodies ia) (s'.bodies ib) c') := by
  intro s'
  have hw : within (fun k => k == ia || k == ib) (⟨ia, ib, arb⟩ : Link (Arbiter K)) = true := by simp [within]
  obtain ⟨g, -⟩ := C115_step (V := fun k => k == ia || k == ib) M par prevDT ⟨dt, dyn, [⟨ia, ib, arb⟩]⟩ ⟨dt, dyn, arbs⟩
    ⟨rfl, fun _ _ => Iff.rfl, by rw [ha1]; simp [hw]⟩ ⟨bs, [], []⟩ ⟨bs, [], joints⟩
    (fun l h => by rw [List.mem_singleton] at h; rw [h]; exact .inl hw) ha (fun _ h => absurd h List.not_mem_nil) hj ⟨fun _ _ => rfl, rfl, by rw [hj1]; rfl⟩
  obtain ⟨c', k1, k2, k3, k4, k5, k6⟩ := single (M := M) (prevDT := prevDT) (dyn := dyn) hdt hit hne hc hn hsv hu hcen hm hi
  have ea := g.bodies ia (by simp)
  have eb := g.bodies ib (by simp)
  refine ⟨c', ?_, k2, k3, ?_, fun h => ?_, fun h1 h2 h3 => ?_⟩
  · have := g.arbs
    rw [k1] at this
    have h2 : (⟨ia, ib, { arb with contacts := [c'] }⟩ : Link (Arbiter K)) ∈ s'.arbs.filter (within fun k => k == ia || k == ib) := by
      rw [this]; simp [within]
    exact List.mem_of_mem_filter h2
  · unfold Lawful at k4 ⊢
    rw [show s'.bodies ia = _ from ea, show s'.bodies ib = _ from eb]; exact k4
  · have := k5 h
    unfold Exchanged at this ⊢
    rw [show s'.bodies ia = _ from ea, show s'.bodies ib = _ from eb]; exact this
  · rw [show s'.bodies ia = _ from ea, show s'.bodies ib = _ from eb]; exact k6 h1 h2 h3

/-! ## The whole simulation -/

namespace Spec
/-- Nothing but the collision of the shapes `i` and `j` acts on their bodies in the step from `w` to `w'`, unless on one that cannot be moved anyway. -/
def Undisturbed (sc : Scene K) (w w' : World K) (i j : Nat) : Prop :=
  (∀ p ∈ w'.active, p ≠ (i, j) → ∀ k, k = (sc.figs p.1).body ∨ k = (sc.figs p.2).body → k = (sc.figs i).body ∨ k = (sc.figs j).body → Immovable (w.bodies k)) ∧
  ∀ l ∈ w.joints, l.ia ≠ l.ib ∧ ∀ k, k = l.ia ∨ k = l.ib → k = (sc.figs i).body ∨ k = (sc.figs j).body → Immovable (w.bodies k)

/-- The collision of two shapes is new, or has gone on since the step before, and that was as long as this one. -/
def Known (w : World K) (dt : K) (i j : Nat) : Prop := (∀ o ∈ w.cache, o.is i j = false) ∨ ((i, j) ∈ w.active ∧ w.prevDT = dt)
end Spec

theorem impact {M : Mth K} (hM : M.Lawful) {sc : Scene K} {fig : Nat → Figure K} (hmade : Made M sc fig) (hper : 1 ≤ sc.persistence) (hit : sc.par.iterations ≠ 0) {r : Roster} {w : World K}
    (hu : Upright sc r w) (hf : Filed w) {inp : Tick K} (ho : WOk sc r (.step inp)) (h0 : inp.dt ≠ 0) {i j : Nat} (hij : (i, j) ∈ (w.step M sc inp).active)
    (hno : Undisturbed sc w (w.step M sc inp) i j) (hmass : Movable (w.bodies (sc.figs i).body) (w.bodies (sc.figs j).body))
    (hfr : 0 ≤ (sc.figs i).surface.friction * (sc.figs j).surface.friction) {n r1 r2 : V2 K}
    (hinfo : ∀ p info, (w.begun M sc inp).hit M sc p = some info → info.pair p = (i, j) → info.n = n ∧ ∃ q : Pushed K, info.contacts = [q] ∧
      q.p1.sub ((w.begun M sc inp).bodies (sc.figs i).body).p = r1 ∧ q.p2.sub ((w.begun M sc inp).bodies (sc.figs j).body).p = r2)
    (hn : n.x ^ 2 + n.y ^ 2 = 1) (hcen : Central (w.bodies (sc.figs i).body) (w.bodies (sc.figs j).body) r1 r2 n) :
    ∃ c : Contact K, (heldArb (w.step M sc inp).cache i j).contacts = [c] ∧ (heldArb (w.step M sc inp).cache i j).normal = n ∧ c.r1 = r1 ∧ c.r2 = r2 ∧
      Lawful M sc.par inp.dyn inp.dt ((sc.figs i).surface.elasticity * (sc.figs j).surface.elasticity) ((sc.figs i).surface.friction * (sc.figs j).surface.friction) n
        ⟨(sc.figs j).surface.velocity.x - (sc.figs i).surface.velocity.x, (sc.figs j).surface.velocity.y - (sc.figs i).surface.velocity.y⟩
        (sc.figs i).body (sc.figs j).body w.bodies (w.step M sc inp).bodies c ∧
      (Known w inp.dt i j → Exchanged M sc.par inp.dyn inp.dt n (sc.figs i).body (sc.figs j).body w.bodies (w.step M sc inp).bodies c) ∧
      (Unbiased inp.dyn (sc.figs i).body (sc.figs j).body w.bodies → 0 < inp.dt → M.pow sc.par.cbias inp.dt ≤ 1 →
        DrawnApart M sc.par inp.dt n ((w.step M sc inp).bodies (sc.figs i).body) ((w.step M sc inp).bodies (sc.figs j).body) c) := by
  have hc := calls_apart hM hmade hu inp ho
  obtain ⟨hb, -⟩ := begun_upright hM hmade hu inp ho
  have hfound := found_filed M sc hper inp w hf.one hc
  obtain ⟨-, -, -, e4, -⟩ := step_frame M sc inp w h0
  have hij' : (i, j) ∈ (w.found M sc inp).active := by rw [← e4]; exact hij
  obtain ⟨info, p, hp, hhit, hpair, harb⟩ := found_call M sc hper inp w hf.one hc (i, j) hij'
  obtain ⟨hnn, q, hq, hq1, hq2⟩ := hinfo p info hhit hpair.symm
  obtain ⟨-, hbod, -⟩ := hit_collide hb.proper hhit
  have hne : (sc.figs i).body ≠ (sc.figs j).body := by
    unfold Info.pair at hpair
    split at hpair
    · rw [show i = p.2 from congrArg Prod.fst hpair, show j = p.1 from congrArg Prod.snd hpair]; exact hbod.symm
    · rw [show i = p.1 from congrArg Prod.fst hpair, show j = p.2 from congrArg Prod.snd hpair]; exact hbod
  -- the arbiter
  generalize hA : heldArb ((w.found M sc inp).swept sc).cache i j = A at harb
  have hup : A.e = (sc.figs i).surface.elasticity * (sc.figs j).surface.elasticity ∧ A.u = (sc.figs i).surface.friction * (sc.figs j).surface.friction ∧ A.normal = n ∧
      A.surfaceVr = (((sc.figs j).surface.velocity.sub (sc.figs i).surface.velocity).sub (n.scale (((sc.figs j).surface.velocity.sub (sc.figs i).surface.velocity).dot n))) ∧
      A.contacts = [refreshContact (heldArb w.aged i j).contacts ((w.begun M sc inp).bodies (sc.figs i).body).p ((w.begun M sc inp).bodies (sc.figs j).body).p q.contact] := by
    rw [harb]
    unfold World.updated
    dsimp only
    have : (w.begun M sc inp).cache = w.aged := rfl
    split_ifs <;> simp only [Arbiter.update, hnn, hq, List.map_cons, List.map_nil, this] <;> exact ⟨trivial, trivial, trivial, trivial, trivial⟩
  obtain ⟨u1, u2, u3, u4, u5⟩ := hup
  generalize hd : refreshContact (heldArb w.aged i j).contacts ((w.begun M sc inp).bodies (sc.figs i).body).p ((w.begun M sc inp).bodies (sc.figs j).body).p q.contact = d at u5
  have d1 : d.r1 = r1 ∧ d.r2 = r2 := by
    obtain ⟨-, k1, k2, -⟩ := copyOld_spec (heldArb w.aged i j).contacts { q.contact with r1 := q.contact.r1.sub ((w.begun M sc inp).bodies (sc.figs i).body).p, r2 := q.contact.r2.sub ((w.begun M sc inp).bodies (sc.figs j).body).p, jnAcc := 0, jtAcc := 0 }
    rw [← hd, ← hq1, ← hq2]
    exact ⟨k1, k2⟩
  -- the other links
  have hcol : collisions M sc inp w = (w.found M sc inp).active.map fun p => ⟨(sc.figs p.1).body, (sc.figs p.2).body, heldArb ((w.found M sc inp).swept sc).cache p.1 p.2⟩ := rfl
  have both : ¬ (Immovable (w.bodies (sc.figs i).body) ∧ Immovable (w.bodies (sc.figs j).body)) := by
    rintro ⟨⟨x1, -⟩, ⟨x2, -⟩⟩
    have := hmass.2.2.2.2
    rw [x1, x2] at this
    simp at this
  have hbet : ∀ x ∈ (w.found M sc inp).active, (sc.figs x.1).body ≠ (sc.figs x.2).body := by
    intro x hx
    obtain ⟨info', p', -, hhit', hpair', -⟩ := found_call M sc hper inp w hf.one hc x hx
    obtain ⟨-, hbod', -⟩ := hit_collide hb.proper hhit'
    unfold Info.pair at hpair'
    split at hpair'
    · rw [hpair']; exact hbod'.symm
    · rw [hpair']; exact hbod'
  have hout : ∀ x ∈ (w.found M sc inp).active, x ≠ (i, j) →
      (((sc.figs x.1).body = (sc.figs i).body ∨ (sc.figs x.1).body = (sc.figs j).body) ∧ ((sc.figs x.2).body = (sc.figs i).body ∨ (sc.figs x.2).body = (sc.figs j).body)) → False := by
    rintro x hx hxne ⟨h1, h2⟩
    have i1 := hno.1 x (by rw [e4]; exact hx) hxne _ (.inl rfl) h1
    have i2 := hno.1 x (by rw [e4]; exact hx) hxne _ (.inr rfl) h2
    have := hbet x hx
    rcases h1 with h1 | h1 <;> rcases h2 with h2 | h2
    · exact this (h1.trans h2.symm)
    · rw [h1] at i1; rw [h2] at i2; exact both ⟨i1, i2⟩
    · rw [h1] at i1; rw [h2] at i2; exact both ⟨i2, i1⟩
    · exact this (h1.trans h2.symm)
  have sa : Sealed (fun k => k == (sc.figs i).body || k == (sc.figs j).body) w.bodies (collisions M sc inp w) := by
    intro l hl
    rw [hcol] at hl
    obtain ⟨x, hx, rfl⟩ := List.mem_map.1 hl
    by_cases hxe : x = (i, j)
    · left; rw [hxe]; simp [within]
    · right
      refine ⟨fun h => hno.1 x (by rw [e4]; exact hx) hxe _ (.inl rfl) (by simpa using h), fun h => hno.1 x (by rw [e4]; exact hx) hxe _ (.inr rfl) (by simpa using h)⟩
  have fa : (collisions M sc inp w).filter (within fun k => k == (sc.figs i).body || k == (sc.figs j).body) = [⟨(sc.figs i).body, (sc.figs j).body, A⟩] := by
    have hapart : (w.found M sc inp).active.Pairwise (fun p q => ¬ SameTwo p q) := hfound.apart
    rw [hcol, List.filter_map]
    have : (w.found M sc inp).active.filter ((within fun k => k == (sc.figs i).body || k == (sc.figs j).body) ∘
        fun p => (⟨(sc.figs p.1).body, (sc.figs p.2).body, heldArb ((w.found M sc inp).swept sc).cache p.1 p.2⟩ : Link (Arbiter K))) =
        (w.found M sc inp).active.filter (fun x => x == (i, j)) := by
      refine List.filter_congr fun x hx => ?_
      by_cases hxe : x = (i, j)
      · rw [hxe]; simp [within]
      · have h1 : (x == (i, j)) = false := by simpa using hxe
        rw [h1]
        simp only [Function.comp, within]
        by_contra hcon
        rw [Bool.not_eq_false] at hcon
        exact hout x hx hxe (by simpa using hcon)
    rw [this]
    have nd : (w.found M sc inp).active.Nodup := hapart.imp fun h e => h (by rw [e]; exact .inl rfl)
    rw [List.filter_beq, List.count_eq_one_of_mem nd hij']
    simp [hA]
  have sj : Sealed (fun k => k == (sc.figs i).body || k == (sc.figs j).body) w.bodies w.joints := by
    intro l hl
    right
    exact ⟨fun h => (hno.2 l hl).2 _ (.inl rfl) (by simpa using h), fun h => (hno.2 l hl).2 _ (.inr rfl) (by simpa using h)⟩
  have fj : w.joints.filter (within fun k => k == (sc.figs i).body || k == (sc.figs j).body) = [] := by
    rw [List.filter_eq_nil_iff]
    intro l hl h
    simp only [within, Bool.and_eq_true, Bool.or_eq_true, beq_iff_eq] at h
    obtain ⟨h1, h2⟩ := h
    obtain ⟨hd, hl2⟩ := hno.2 l hl
    have i1 := hl2 _ (.inl rfl) h1
    have i2 := hl2 _ (.inr rfl) h2
    rcases h1 with h1 | h1 <;> rcases h2 with h2 | h2
    · exact hd (h1.trans h2.symm)
    · rw [h1] at i1; rw [h2] at i2; exact both ⟨i1, i2⟩
    · rw [h1] at i1; rw [h2] at i2; exact both ⟨i2, i1⟩
    · exact hd (h1.trans h2.symm)
  have hsol := step_solver M sc hper inp w h0 hf.one hc
  obtain ⟨c', k1, k2, k3, k4, k5, k6⟩ := isolated (M := M) (prevDT := w.prevDT) (dyn := inp.dyn) h0 hit hne u5 (by rw [u3]; exact hn)
    (by rw [u3, u4]; simp only [V2.sub, V2.scale, V2.dot]; linear_combination
          -((((sc.figs j).surface.velocity.x - (sc.figs i).surface.velocity.x) * n.x + ((sc.figs j).surface.velocity.y - (sc.figs i).surface.velocity.y) * n.y)) * hn)
    (by rw [u2]; exact hfr) (by rw [u3, d1.1, d1.2]; exact hcen) ⟨hmass.1, hmass.2.1, hmass.2.2.2.2⟩ ⟨hmass.2.2.1, hmass.2.2.2.1⟩ sa fa sj fj
  rw [← hsol] at k1 k4 k5 k6
  have hbs : ((w.step M sc inp).solver sc).bodies = (w.step M sc inp).bodies := rfl
  rw [hbs] at k4 k5 k6
  obtain ⟨x, hx, ex⟩ := List.mem_map.1 k1
  simp only [Link.mk.injEq] at ex
  obtain ⟨x1, x2, x3⟩ := ex
  have hxe : x = (i, j) := by
    by_contra hxe
    exact hout x (by rw [← e4]; exact hx) hxe ⟨.inl x1, .inr x2⟩
  rw [hxe] at x3
  rw [u1, u2, u3, u4] at k4
  rw [u3] at k5 k6
  refine ⟨c', by rw [x3], by rw [x3]; exact u3, k2.trans d1.1, k3.trans d1.2, ?_, fun hk => k5 ?_, k6⟩
  · unfold Lawful at k4 ⊢
    have : ∀ sv : V2 K, (sv.sub (n.scale (sv.dot n))).x * n.perp.x + (sv.sub (n.scale (sv.dot n))).y * n.perp.y = sv.x * n.perp.x + sv.y * n.perp.y := by
      intro sv; simp only [V2.sub, V2.scale, V2.dot, V2.perp]; ring
    rw [this] at k4
    exact k4
  · rcases hk with hk | ⟨hk1, hk2⟩
    · left
      have hfind : w.cache.find? (fun o => o.is i j) = none := List.find?_eq_none.2 fun o ho => by simp [hk o ho]
      have hst : stateOf w (i, j) = .first := by unfold stateOf; rw [hfind]
      refine ⟨?_, ?_⟩
      · have hs := updated_state M sc inp w (i, j) info
        rw [hst] at hs
        rw [harb, hs]
        have : A.state ≠ .ignore := by
          have hact : (w.found M sc inp).active = (w.calls M sc inp).filterMap ((w.begun M sc inp).solved M sc inp) :=
            ((meets_active M sc inp (w.calls M sc inp) (w.begun M sc inp) hc).1).trans (List.nil_append _)
          rw [hact] at hij'
          obtain ⟨p', hp', e'⟩ := List.mem_filterMap.1 hij'
          obtain ⟨info', hi', epair, hpass⟩ := solved_pair e'
          have := hpass.1
          rw [← epair, updated_state, hst] at this
          rw [harb, hs]; exact this
        rw [harb, hs] at this
        simp only [true_or, if_true] at this ⊢
        split at this
        · rename_i hbg; rw [if_pos hbg]
        · exact absurd rfl this
      · have hold : (heldArb w.aged i j).contacts = [] := by
          unfold heldArb
          rw [find_aged, hfind]; rfl
        rw [← hd, hold]
        exact ⟨rfl, rfl⟩
    · right
      refine ⟨?_, hk2⟩
      have hs := updated_state M sc inp w (i, j) info
      rw [filed_normal hf hk1] at hs
      rw [harb, hs]
      simp

namespace Spec
/-- The transform of a body puts its centre of gravity where the body is. -/
def Centred (b : Body K) : Prop := b.tr.apply b.cog = b.p

/-- What C120 says of the collision of the shapes `i` and `j` in the step from `w` to `w'`, the normal of which is `n`, at the offsets `r1` and `r2` from the centres. -/
def Impact (M : Mth K) (sc : Scene K) (inp : Tick K) (w w' : World K) (i j : Nat) (n r1 r2 : V2 K) : Prop :=
  ∃ c : Contact K, (heldArb w'.cache i j).contacts = [c] ∧ (heldArb w'.cache i j).normal = n ∧ c.r1 = r1 ∧ c.r2 = r2 ∧
    Lawful M sc.par inp.dyn inp.dt ((sc.figs i).surface.elasticity * (sc.figs j).surface.elasticity) ((sc.figs i).surface.friction * (sc.figs j).surface.friction) n
      ⟨(sc.figs j).surface.velocity.x - (sc.figs i).surface.velocity.x, (sc.figs j).surface.velocity.y - (sc.figs i).surface.velocity.y⟩
      (sc.figs i).body (sc.figs j).body w.bodies w'.bodies c ∧
    (Known w inp.dt i j → Exchanged M sc.par inp.dyn inp.dt n (sc.figs i).body (sc.figs j).body w.bodies w'.bodies c) ∧
    (Unbiased inp.dyn (sc.figs i).body (sc.figs j).body w.bodies → 0 < inp.dt → M.pow sc.par.cbias inp.dt ≤ 1 →
      DrawnApart M sc.par inp.dt n (w'.bodies (sc.figs i).body) (w'.bodies (sc.figs j).body) c)
end Spec

theorem begun_placed (M : Mth K) (sc : Scene K) (inp : Tick K) (w : World K) (k : Nat) (h : Centred (w.bodies k)) :
    ((w.begun M sc inp).bodies k).tr.apply (w.bodies k).cog = ((w.begun M sc inp).bodies k).p := by
  simp only [World.begun, SolverState.positions]
  split
  · simp only [Body.updatePosition, Body.setTransform, Body.mkTransform, Transform.transpose, Transform.apply]
    apply V2.ext <;> dsimp only <;> ring
  · exact h

/-- A direction from a vector, with another for the zero vector. -/
theorem direction {M : Mth K} (hM : M.Lawful) (d z : V2 K) (hz : z.x ^ 2 + z.y ^ 2 = 1) {R : K} (hR : 0 ≤ R) (h : d.lengthSq < R * R) :
    let n := if M.sqrt d.lengthSq ≠ 0 then d.scale (1 / M.sqrt d.lengthSq) else z
    n.x ^ 2 + n.y ^ 2 = 1 ∧ ∃ e, 0 ≤ e ∧ e < R ∧ d.x = e * n.x ∧ d.y = e * n.y := by
  have h0 : 0 ≤ d.lengthSq := by simp only [V2.lengthSq, V2.dot]; nlinarith [mul_self_nonneg d.x, mul_self_nonneg d.y]
  have h1 := hM.sqrt_nonneg _ h0
  have h2 := hM.sqrt_sq _ h0
  have hlt : M.sqrt d.lengthSq < R := by
    by_contra hc
    have := mul_self_le_mul_self hR (not_lt.1 hc)
    rw [h2] at this
    exact absurd h (not_lt.2 this)
  have hl : d.lengthSq = d.x * d.x + d.y * d.y := rfl
  intro n
  by_cases hs : M.sqrt d.lengthSq = 0
  · have hn : n = z := if_neg (by simpa using hs)
    rw [hs, mul_zero] at h2
    refine ⟨by rw [hn]; exact hz, 0, le_rfl, by rw [← hs]; exact hlt, ?_, ?_⟩
    · rw [zero_mul]; rw [hl] at h2; nlinarith [mul_self_nonneg d.x, mul_self_nonneg d.y]
    · rw [zero_mul]; rw [hl] at h2; nlinarith [mul_self_nonneg d.x, mul_self_nonneg d.y]
  · have hn : n = d.scale (1 / M.sqrt d.lengthSq) := if_pos hs
    generalize M.sqrt d.lengthSq = e at *
    refine ⟨?_, e, h1, hlt, ?_, ?_⟩
    · rw [hn]
      simp only [V2.scale]
      have : (d.x * (1 / e)) ^ 2 + (d.y * (1 / e)) ^ 2 = (d.x * d.x + d.y * d.y) / (e * e) := by field_simp
      rw [this, ← hl, h2]
      exact div_self (by rw [← h2]; exact mul_ne_zero hs hs)
    · rw [hn]; simp only [V2.scale]; field_simp
    · rw [hn]; simp only [V2.scale]; field_simp

theorem made_segment_tn {M : Mth K} (hM : M.Lawful) {a b : V2 K} (hab : a ≠ b) {r : K} {t : Transform K} (ht : Rigid t) :
    ((Segment.new M a b r).cache t).1.tn.x ^ 2 + ((Segment.new M a b r).cache t).1.tn.y ^ 2 = 1 := by
  have hd : b.sub a ≠ V2.zero := by
    intro h
    simp only [V2.sub, V2.zero, V2.mk.injEq] at h
    exact hab (V2.ext (by linarith [h.1]) (by linarith [h.2]))
  have hu := unit_lengthSq hM hd
  obtain ⟨h1, h2, h3⟩ := ht
  show (t.applyVector (((b.sub a).unit M).rperp)).x ^ 2 + (t.applyVector (((b.sub a).unit M).rperp)).y ^ 2 = 1
  simp only [V2.lengthSq, V2.dot, Transform.applyVector, V2.rperp, h2, h3] at hu ⊢
  linear_combination ((b.sub a).unit M).x ^ 2 * h1 + ((b.sub a).unit M).y ^ 2 * h1 + hu

/-- **C120.** A collision of two balls about the centres of gravity of their bodies, after any history: if nothing else acts on the bodies in a step, they come
out of it as the laws of Newton and Coulomb say, with the product of the elasticities and of the frictions; and they have got equal and opposite impulses. -/
theorem C120_balls {M : Mth K} (hM : M.Lawful) {sc : Scene K} {fig : Nat → Figure K} (hm : Made M sc fig) (hper : 1 ≤ sc.persistence) (hit : sc.par.iterations ≠ 0) (bodies : Nat → Body K)
    (shapes : Nat → CShape K) (hb : ∀ k, Rigid (bodies k).tr) (hs : ∀ i, (shapes i).bb.L ≤ (shapes i).bb.R ∧ (shapes i).bb.B ≤ (shapes i).bb.T)
    (ops : List (WorldOp K)) (inp : Tick K) (hl : WLegal sc (fun _ => none) (ops ++ [.step inp])) (h0 : inp.dt ≠ 0) :
    ∃ w, (World.init bodies shapes).run M sc ops = some w ∧ ∀ (i j : Nat) (ρ ρ' : K), (i, j) ∈ (w.step M sc inp).active →
      rosterAfter (fun _ => none) ops i ≠ none → rosterAfter (fun _ => none) ops j ≠ none →
      fig i = .ball ρ (w.bodies (sc.figs i).body).cog → fig j = .ball ρ' (w.bodies (sc.figs j).body).cog → Centred (w.bodies (sc.figs i).body) → Centred (w.bodies (sc.figs j).body) →
      Movable (w.bodies (sc.figs i).body) (w.bodies (sc.figs j).body) → 0 ≤ (sc.figs i).surface.friction * (sc.figs j).surface.friction →
      Undisturbed sc w (w.step M sc inp) i j →
      ∃ (n : V2 K) (d : K), n.x ^ 2 + n.y ^ 2 = 1 ∧ 0 ≤ d ∧ d < ρ + ρ' ∧
        ((w.step M sc inp).bodies (sc.figs j).body).p = ⟨((w.step M sc inp).bodies (sc.figs i).body).p.x + d * n.x, ((w.step M sc inp).bodies (sc.figs i).body).p.y + d * n.y⟩ ∧
        Impact M sc inp w (w.step M sc inp) i j n ⟨ρ * n.x, ρ * n.y⟩ ⟨-(ρ' * n.x), -(ρ' * n.y)⟩ := by
  obtain ⟨hl1, hl2, -⟩ := (legal_append sc ops _ _).1 hl
  obtain ⟨w, e, hu, hf⟩ := run_filed hM hm hper ops _ _ (init_upright sc bodies shapes hb hs) ⟨List.Pairwise.nil, List.Pairwise.nil, (fun p hp => by cases hp)⟩ hl1
  refine ⟨w, e, fun i j ρ ρ' hij ri rj fi fj pi pj hmass hfr hno => ?_⟩
  obtain ⟨hbu, hcur⟩ := begun_upright hM hm hu inp hl2
  obtain ⟨-, -, -, e4, e5⟩ := step_frame M sc inp w h0
  have hplace : ∀ k, ((w.step M sc inp).bodies k).p = ((w.begun M sc inp).bodies k).p := fun k => (e5 k).2.1
  have si := begun_placed M sc inp w _ pi
  have sj := begun_placed M sc inp w _ pj
  generalize hpi : ((w.begun M sc inp).bodies (sc.figs i).body).p = xi at *
  generalize hpj : ((w.begun M sc inp).bodies (sc.figs j).body).p = xj at *
  -- the collision routine
  have routine : ∀ p info, (w.begun M sc inp).hit M sc p = some info → info.pair p = (i, j) → (xj.sub xi).lengthSq < (ρ + ρ') * (ρ + ρ') ∧
      info.n = (if M.sqrt (xj.sub xi).lengthSq ≠ 0 then (xj.sub xi).scale (1 / M.sqrt (xj.sub xi).lengthSq) else ⟨1, 0⟩) ∧
      info.contacts = [⟨xi.add (info.n.scale ρ), xj.add (info.n.scale (-ρ')), 0⟩] := by
    intro p info hhit hpair
    obtain ⟨hne, -, id, hco⟩ := hit_collide hbu.proper hhit
    have key : ∀ x y : Nat, (x = i ∨ x = j) → (y = i ∨ y = j) → ∀ id info, collide M sc.par.inf sc.tiny ((w.begun M sc inp).shapes x) ((w.begun M sc inp).shapes y) id = some info →
        info.swapped = false := by
      have cls : ∀ x, (x = i ∨ x = j) → ∃ ρ c, (w.begun M sc inp).shapes x = cachedShape sc.par.inf ((w.begun M sc inp).bodies (sc.figs x).body).tr ((Figure.ball ρ c).made M) (sc.figs x).hash := by
        rintro x (rfl | rfl)
        · exact ⟨_, _, by rw [hcur _ ri, (hm _).2, fi]⟩
        · exact ⟨_, _, by rw [hcur _ rj, (hm _).2, fj]⟩
      intro x y hx hy id info h
      obtain ⟨_, _, ex⟩ := cls x hx
      obtain ⟨_, _, ey⟩ := cls y hy
      rw [ex, ey, ball_ball] at h
      rw [← Option.some.inj h]
      unfold circleToCircle
      dsimp only
      split <;> rfl
    have hp : p = (i, j) := by
      unfold Info.pair at hpair
      split at hpair
      · rename_i hsw
        have h1 : p.2 = i := congrArg Prod.fst hpair
        have h2 : p.1 = j := congrArg Prod.snd hpair
        rw [key p.1 p.2 (.inr h2) (.inl h1) id info hco] at hsw
        exact absurd hsw (by simp)
      · exact hpair
    rw [hp] at hco
    dsimp only at hco
    rw [hcur _ ri, hcur _ rj, (hm _).2, (hm _).2, fi, fj, ball_ball, si, sj] at hco
    have hinf := Option.some.inj hco
    rw [← hinf] at hne ⊢
    unfold circleToCircle at hne ⊢
    dsimp only at hne ⊢
    split at hne
    · rename_i hlt
      rw [if_pos hlt]
      exact ⟨hlt, rfl, rfl⟩
    · exact absurd rfl hne
  -- it was called
  have hc := calls_apart hM hm hu inp hl2
  obtain ⟨info, p, -, hhit, hpair, -⟩ := found_call M sc hper inp w hf.one hc (i, j) (by rw [← e4]; exact hij)
  obtain ⟨hlt, -, -⟩ := routine p info hhit hpair.symm
  have gi := (hm i).1
  have gj := (hm j).1
  rw [fi] at gi
  rw [fj] at gj
  obtain ⟨hn, d, d1, d2, d3, d4⟩ := direction hM (xj.sub xi) ⟨1, 0⟩ (by norm_num) (add_nonneg gi gj) hlt
  generalize (if M.sqrt (xj.sub xi).lengthSq ≠ 0 then (xj.sub xi).scale (1 / M.sqrt (xj.sub xi).lengthSq) else (⟨1, 0⟩ : V2 K)) = n at *
  refine ⟨n, d, hn, d1, d2, ?_, ?_⟩
  · rw [hplace, hplace, hpi, hpj]
    simp only [V2.sub] at d3 d4
    apply V2.ext <;> dsimp only <;> linarith
  · refine impact hM hm hper hit hu hf hl2 h0 hij hno hmass hfr (fun p info h1 h2 => ?_) hn ?_
    · obtain ⟨-, k1, k2⟩ := routine p info h1 h2
      refine ⟨k1, _, k2, ?_, ?_⟩
      · rw [hpi, k1]; simp only [V2.sub, V2.add, V2.scale]; apply V2.ext <;> dsimp only <;> ring
      · rw [hpj, k1]; simp only [V2.sub, V2.add, V2.scale]; apply V2.ext <;> dsimp only <;> ring
    · constructor <;> dsimp only <;> ring

/-- Of a ball and a rod the ball comes first. -/
theorem ball_first {M : Mth K} (hM : M.Lawful) {sc : Scene K} {fig : Nat → Figure K} (hm : Made M sc fig) (hper : 1 ≤ sc.persistence) {ro : Roster} {w : World K}
    (hu : Upright sc ro w) (hf : Filed w) {inp : Tick K} (ho : WOk sc ro (.step inp)) (h0 : inp.dt ≠ 0) {i j : Nat} {ρ r : K} {c a b : V2 K} (ri : ro i ≠ none) (rj : ro j ≠ none)
    (fi : fig i = .ball ρ c) (fj : fig j = .rod a b r) : (j, i) ∉ (w.step M sc inp).active := by
  intro hji
  obtain ⟨hbu, hcur⟩ := begun_upright hM hm hu inp ho
  obtain ⟨-, -, -, e4, -⟩ := step_frame M sc inp w h0
  obtain ⟨info, p, -, hhit, hpair, -⟩ := found_call M sc hper inp w hf.one (calls_apart hM hm hu inp ho) (j, i) (by rw [← e4]; exact hji)
  obtain ⟨hne, -, id, hco⟩ := hit_collide hbu.proper hhit
  have sw : ∀ circle sg rot b, (circleToSegment M circle sg rot ⟨b, id, V2.zero, []⟩).swapped = b := by
    intro circle sg rot b
    unfold circleToSegment
    dsimp only
    split <;> rfl
  unfold Info.pair at hpair
  split at hpair
  · rename_i hs
    have hp : p = (i, j) := Prod.ext (congrArg Prod.snd hpair).symm (congrArg Prod.fst hpair).symm
    rw [hp] at hco
    dsimp only at hco
    rw [hcur _ ri, hcur _ rj, (hm _).2, (hm _).2, fi, fj, ball_rod] at hco
    rw [← Option.some.inj hco, sw] at hs
    cases hs
  · rename_i hs
    rw [← hpair] at hco
    dsimp only at hco
    rw [hcur _ ri, hcur _ rj, (hm _).2, (hm _).2, fi, fj, rod_ball] at hco
    rw [← Option.some.inj hco, sw] at hs
    exact hs rfl

/-- **C120.** The same for a ball and a rod whose body cannot be turned, such as the ground. -/
theorem C120_ground {M : Mth K} (hM : M.Lawful) {sc : Scene K} {fig : Nat → Figure K} (hm : Made M sc fig) (hper : 1 ≤ sc.persistence) (hit : sc.par.iterations ≠ 0) (bodies : Nat → Body K)
    (shapes : Nat → CShape K) (hb : ∀ k, Rigid (bodies k).tr) (hs : ∀ i, (shapes i).bb.L ≤ (shapes i).bb.R ∧ (shapes i).bb.B ≤ (shapes i).bb.T)
    (ops : List (WorldOp K)) (inp : Tick K) (hl : WLegal sc (fun _ => none) (ops ++ [.step inp])) (h0 : inp.dt ≠ 0) :
    ∃ w, (World.init bodies shapes).run M sc ops = some w ∧ ∀ (i j : Nat) (ρ r : K) (a b : V2 K), (i, j) ∈ (w.step M sc inp).active ∨ (j, i) ∈ (w.step M sc inp).active →
      rosterAfter (fun _ => none) ops i ≠ none → rosterAfter (fun _ => none) ops j ≠ none →
      fig i = .ball ρ (w.bodies (sc.figs i).body).cog → fig j = .rod a b r → Centred (w.bodies (sc.figs i).body) → (w.bodies (sc.figs j).body).iInv = 0 →
      Movable (w.bodies (sc.figs i).body) (w.bodies (sc.figs j).body) → 0 ≤ (sc.figs i).surface.friction * (sc.figs j).surface.friction →
      Undisturbed sc w (w.step M sc inp) i j →
      ∃ (n : V2 K) (d t : K), n.x ^ 2 + n.y ^ 2 = 1 ∧ 0 ≤ d ∧ d < ρ + r ∧ 0 ≤ t ∧ t ≤ 1 ∧
        let x := ((w.step M sc inp).bodies (sc.figs j).body).tr.apply ⟨a.x + (b.x - a.x) * t, a.y + (b.y - a.y) * t⟩
        let p := ((w.step M sc inp).bodies (sc.figs j).body).p
        x = ⟨((w.step M sc inp).bodies (sc.figs i).body).p.x + d * n.x, ((w.step M sc inp).bodies (sc.figs i).body).p.y + d * n.y⟩ ∧
        Impact M sc inp w (w.step M sc inp) i j n ⟨ρ * n.x, ρ * n.y⟩ ⟨x.x - r * n.x - p.x, x.y - r * n.y - p.y⟩ := by
  obtain ⟨hl1, hl2, -⟩ := (legal_append sc ops _ _).1 hl
  obtain ⟨w, e, hu, hf⟩ := run_filed hM hm hper ops _ _ (init_upright sc bodies shapes hb hs) ⟨List.Pairwise.nil, List.Pairwise.nil, (fun p hp => by cases hp)⟩ hl1
  refine ⟨w, e, fun i j ρ r a b hij ri rj fi fj pi pj hmass hfr hno => ?_⟩
  replace hij : (i, j) ∈ (w.step M sc inp).active := hij.resolve_right (ball_first hM hm hper hu hf hl2 h0 ri rj fi fj)
  obtain ⟨hbu, hcur⟩ := begun_upright hM hm hu inp hl2
  obtain ⟨-, -, -, e4, e5⟩ := step_frame M sc inp w h0
  have hplace : ∀ k, ((w.step M sc inp).bodies k).p = ((w.begun M sc inp).bodies k).p := fun k => (e5 k).2.1
  have htr : ∀ k, ((w.step M sc inp).bodies k).tr = ((w.begun M sc inp).bodies k).tr := fun k => (e5 k).2.2.2
  have si := begun_placed M sc inp w _ pi
  have hrig := hbu.rigid (sc.figs j).body
  have gi := (hm i).1
  have gj := (hm j).1
  rw [fi] at gi
  rw [fj] at gj
  simp only [hplace, htr]
  generalize hpi : ((w.begun M sc inp).bodies (sc.figs i).body).p = xi at *
  generalize hpj : ((w.begun M sc inp).bodies (sc.figs j).body).p = xj at *
  generalize htj : ((w.begun M sc inp).bodies (sc.figs j).body).tr = τ at *
  -- the collision routine
  have routine : ∃ (t : K) (z : V2 K), 0 ≤ t ∧ t ≤ 1 ∧ z.x ^ 2 + z.y ^ 2 = 1 ∧ ∀ p info, (w.begun M sc inp).hit M sc p = some info → info.pair p = (i, j) →
      let x := τ.apply ⟨a.x + (b.x - a.x) * t, a.y + (b.y - a.y) * t⟩
      (x.sub xi).lengthSq < (ρ + r) * (ρ + r) ∧
      info.n = (if M.sqrt (x.sub xi).lengthSq ≠ 0 then (x.sub xi).scale (1 / M.sqrt (x.sub xi).lengthSq) else z) ∧
      info.contacts = [⟨xi.add (info.n.scale ρ), x.add (info.n.scale (-r)), 0⟩] := by
    have hz := (made_segment_tn hM gj.2 hrig (r := r))
    have ht01 : ∀ q : K, 0 ≤ clamp01 q ∧ clamp01 q ≤ 1 := by
      intro q; unfold clamp01
      exact ⟨le_max_left _ _, max_le zero_le_one (min_le_right _ _)⟩
    refine ⟨clamp01 (((τ.apply b).sub (τ.apply a)).dot (xi.sub (τ.apply a)) / ((τ.apply b).sub (τ.apply a)).lengthSq), ((Segment.new M a b r).cache τ).1.tn, (ht01 _).1, (ht01 _).2, hz, ?_⟩
    intro p info hhit hpair x
    have hx : (τ.apply a).add (((τ.apply b).sub (τ.apply a)).scale (clamp01 (((τ.apply b).sub (τ.apply a)).dot (xi.sub (τ.apply a)) / ((τ.apply b).sub (τ.apply a)).lengthSq))) = x := by
      simp only [x]
      generalize clamp01 (((τ.apply b).sub (τ.apply a)).dot (xi.sub (τ.apply a)) / ((τ.apply b).sub (τ.apply a)).lengthSq) = t
      simp only [Transform.apply, V2.add, V2.sub, V2.scale]
      apply V2.ext <;> dsimp only <;> ring
    obtain ⟨hne, -, id, hco⟩ := hit_collide hbu.proper hhit
    have hcirc : ∃ sw, info = circleToSegment M ⟨(w.bodies (sc.figs i).body).cog, xi, ρ⟩ ((Segment.new M a b r).cache τ).1 ⟨τ.a, τ.b⟩ ⟨sw, id, V2.zero, []⟩ := by
      have hp : p = (i, j) ∨ p = (j, i) := by
        unfold Info.pair at hpair
        split at hpair
        · exact .inr (Prod.ext (congrArg Prod.snd hpair) (congrArg Prod.fst hpair))
        · exact .inl hpair
      rcases hp with hp | hp
      · rw [hp] at hco
        dsimp only at hco
        rw [hcur _ ri, hcur _ rj, (hm _).2, (hm _).2, fi, fj, ball_rod, si, htj] at hco
        exact ⟨false, (Option.some.inj hco).symm⟩
      · rw [hp] at hco
        dsimp only at hco
        rw [hcur _ ri, hcur _ rj, (hm _).2, (hm _).2, fi, fj, rod_ball, si, htj] at hco
        exact ⟨true, (Option.some.inj hco).symm⟩
    obtain ⟨sw, rfl⟩ := hcirc
    have ea : ((Segment.new M a b r).cache τ).1.ta = τ.apply a := rfl
    have eb : ((Segment.new M a b r).cache τ).1.tb = τ.apply b := rfl
    have er : ((Segment.new M a b r).cache τ).1.radius = r := rfl
    generalize ((Segment.new M a b r).cache τ).1 = sg at *
    unfold circleToSegment at hne ⊢
    dsimp only at hne ⊢
    rw [ea, eb, er, hx] at hne ⊢
    split at hne
    · rename_i hlt
      rw [if_pos hlt]
      dsimp only at hne ⊢
      refine ⟨hlt, rfl, ?_⟩
      by_contra hcon
      exact hne (if_neg fun hcap => hcon (if_pos hcap))
    · exact absurd rfl hne
  obtain ⟨t, z, t0, t1, hz, routine⟩ := routine
  dsimp only at routine
  have hc := calls_apart hM hm hu inp hl2
  obtain ⟨info, p, -, hhit, hpair, -⟩ := found_call M sc hper inp w hf.one hc (i, j) (by rw [← e4]; exact hij)
  obtain ⟨hlt, -, -⟩ := routine p info hhit hpair.symm
  generalize hX : τ.apply ⟨a.x + (b.x - a.x) * t, a.y + (b.y - a.y) * t⟩ = X at *
  obtain ⟨hn, d, d1, d2, d3, d4⟩ := direction hM (X.sub xi) z hz (add_nonneg gi gj.1) hlt
  generalize (if M.sqrt (X.sub xi).lengthSq ≠ 0 then (X.sub xi).scale (1 / M.sqrt (X.sub xi).lengthSq) else z) = n at *
  refine ⟨n, d, t, hn, d1, d2, t0, t1, ?_⟩
  rw [hX]
  refine ⟨?_, ?_⟩
  · simp only [V2.sub] at d3 d4
    apply V2.ext <;> dsimp only <;> linarith
  · refine impact hM hm hper hit hu hf hl2 h0 hij hno hmass hfr (fun p info h1 h2 => ?_) hn ?_
    · obtain ⟨-, k1, k2⟩ := routine p info h1 h2
      refine ⟨k1, _, k2, ?_, ?_⟩
      · rw [hpi, k1]; simp only [V2.sub, V2.add, V2.scale]; apply V2.ext <;> dsimp only <;> ring
      · rw [hpj, k1]; simp only [V2.sub, V2.add, V2.scale]; apply V2.ext <;> dsimp only <;> ring
    · refine ⟨?_, by rw [pj, zero_mul]⟩
      dsimp only; ring

/-! ## Two shapes in an empty space -/

/-- What is put into the space. -/
def twoOps (both : Bool) : List (WorldOp K) := [.addDyn 0, if both then .addDyn 1 else .addStat 1]

theorem two_roster (both : Bool) (i : Nat) : rosterAfter (fun _ => none) (twoOps (K := K) both) i = if i = 1 then some both else if i = 0 then some true else none := by
  cases both <;> simp only [twoOps, rosterAfter, List.foldl, rosterStep, Roster.set, if_true, Bool.false_eq_true, if_false]

theorem two_put (M : Mth K) (sc : Scene K) (bodies : Nat → Body K) (shapes : Nat → CShape K) (both : Bool) {w : World K}
    (e : (World.init bodies shapes).run M sc (twoOps both) = some w) : w.bodies = bodies ∧ w.cache = [] ∧ w.joints = [] ∧ ∀ x y, w.barred x y = false := by
  simp only [twoOps, World.run] at e
  cases h1 : (World.init bodies shapes).run1 M sc (.addDyn 0) with
  | none => rw [h1] at e; cases e
  | some w1 =>
    rw [h1] at e
    dsimp only at e
    cases h2 : w1.run1 M sc (if both then .addDyn 1 else .addStat 1) with
    | none => rw [h2] at e; cases e
    | some w2 =>
      rw [h2] at e
      obtain rfl := Option.some.inj e
      obtain ⟨a1, a2, a3, a4⟩ := add_keeps M sc _ _ _ (.inl h1)
      obtain ⟨b1, b2, b3, b4⟩ := add_keeps M sc w1 w2 1 (by cases both <;> simp at h2 <;> tauto)
      exact ⟨b1.trans a1, b2.trans a2, b3.trans a3, fun x y => by rw [b4, a4]; rfl⟩

/-- Two shapes that touch after the first step are its one collision. -/
theorem two_meet {M : Mth K} (hM : M.Lawful) {sc : Scene K} {fig : Nat → Figure K} (hm : Made M sc fig) (hper : 1 ≤ sc.persistence) (bodies : Nat → Body K)
    (shapes : Nat → CShape K) (hb : ∀ k, Rigid (bodies k).tr) (hs : ∀ i, (shapes i).bb.L ≤ (shapes i).bb.R ∧ (shapes i).bb.B ≤ (shapes i).bb.T) (both : Bool) (t : Tick K)
    (h0 : t.dt ≠ 0) (hacc : Accepting t) (hord : t.order = if both then [0, 1] else [0]) (hdyn : both = false → (sc.figs 1).body ∉ t.dyn) (hne : (sc.figs 0).body ≠ (sc.figs 1).body)
    (hfil : Accepts (sc.figs 0).filter (sc.figs 1).filter) (hsen : (sc.figs 0).sensor = false ∧ (sc.figs 1).sensor = false) (hmass : (bodies (sc.figs 0).body).m ≠ sc.par.inf)
    (heasy : Figure.Easy (fig 0) (fig 1) ∧ Figure.Easy (fig 1) (fig 0))
    (htouch : (fig 0).Touch ((SolverState.positions M t.dyn t.dt ⟨bodies, [], []⟩).bodies (sc.figs 0).body).tr ((SolverState.positions M t.dyn t.dt ⟨bodies, [], []⟩).bodies (sc.figs 1).body).tr (fig 1)) :
    WLegal sc (fun _ => none) (twoOps both ++ [.step t]) ∧ ∃ w, (World.init bodies shapes).run M sc (twoOps both) = some w ∧ w.bodies = bodies ∧ w.cache = [] ∧ w.joints = [] ∧
      ∃ p, (w.step M sc t).active = [p] ∧ SameTwo p (0, 1) ∧ Undisturbed sc w (w.step M sc t) p.1 p.2 := by
  classical
  generalize hro' : rosterAfter (fun _ => none) (twoOps (K := K) both) = ro
  have hro : ∀ i, ro i = if i = 1 then some both else if i = 0 then some true else none := fun i => by rw [← hro', two_roster]
  have hro1 : ∀ i, ro i ≠ none → i = 0 ∨ i = 1 := by
    intro i hi
    rw [hro] at hi
    by_cases h1 : i = 1
    · exact .inr h1
    · by_cases h2 : i = 0
      · exact .inl h2
      · rw [if_neg h1, if_neg h2] at hi; exact absurd rfl hi
  have hl1 : WLegal sc (fun _ => none) (twoOps (K := K) both) := by
    refine ⟨rfl, ?_, trivial⟩
    cases both <;> simp [WOk, rosterStep, Roster.set]
  have hok : WOk sc ro (.step t) := by
    refine ⟨?_, fun i => ?_, fun j hj => ?_⟩
    · rw [hord]; cases both <;> simp
    · rw [hord, hro]
      by_cases h1 : i = 1
      · subst h1; cases both <;> simp
      · by_cases h2 : i = 0
        · subst h2; cases both <;> simp
        · cases both <;> simp [h1, h2]
    · rcases hro1 j (by rw [hj]; simp) with rfl | rfl
      · rw [hro] at hj; simp at hj
      · rw [hro] at hj
        simp only [if_true, Option.some.injEq] at hj
        exact hdyn hj
  have hl : WLegal sc (fun _ => none) (twoOps both ++ [.step t]) := (legal_append sc _ _ _).2 ⟨hl1, by rw [hro']; exact hok, trivial⟩
  have hall : AllEasy sc fig ro := by
    intro i j hi hj hd hbo
    rcases hro1 i hi with rfl | rfl <;> rcases hro1 j hj with rfl | rfl
    · exact absurd rfl hbo
    · exact heasy.1
    · exact heasy.2
    · exact absurd rfl hbo
  obtain ⟨w, e, hu, hf⟩ := run_filed hM hm hper _ _ _ (init_upright sc bodies shapes hb hs) ⟨List.Pairwise.nil, List.Pairwise.nil, (fun p hp => by cases hp)⟩ hl1
  rw [hro'] at hu
  obtain ⟨w1, w2, w3, w4⟩ := two_put M sc bodies shapes both e
  have hunr : Unrefused w := by intro x hx; rw [w2] at hx; cases hx
  obtain ⟨fd, fd1, fd2, fd3⟩ := step_exact hM hm hu t hok h0 (finds_detects hM hm hu t hok (.inl hall))
  obtain ⟨-, -, g3, g4, g5⟩ := step_frame M sc t w h0
  have hcoll : Colliding sc fig ro (w.step M sc t) 0 1 := by
    refine ⟨by decide, by rw [hro]; simp, by rw [hro]; simp, .inl (by rw [hro]; simp), hne, hfil, by rw [g3, w4], ?_⟩
    rw [(g5 _).2.2.2, (g5 _).2.2.2]
    simp only [World.begun, w1]
    exact htouch
  obtain ⟨p, rfl, hp⟩ := only_pair fd1 ((fd2 0 1).2 hcoll) (fun p hp => by
    obtain ⟨c1, c2, c3, -⟩ := (fd2 p.1 p.2).1 ⟨p, hp, .inl rfl⟩
    obtain ⟨i, j⟩ := p
    rcases hro1 i c2 with rfl | rfl <;> rcases hro1 j c3 with rfl | rfl
    · exact absurd rfl c1
    · exact .inl rfl
    · exact .inr rfl
    · exact absurd rfl c1)
  have hwant : Wanted sc t w p := by
    rw [wanted_iff hacc hunr, w1]
    rcases hp with rfl | rfl
    · exact ⟨hsen.1, hsen.2, fun hh => hmass hh.1⟩
    · exact ⟨hsen.2, hsen.1, fun hh => hmass hh.2⟩
  have hact : (w.step M sc t).active = [p] := by rw [fd3]; simp [hwant]
  refine ⟨hl, w, e, w1, w2, w3, p, hact, hp, fun x hx hxne => ?_, fun l hl => by rw [w3] at hl; cases hl⟩
  rw [hact, List.mem_singleton] at hx
  exact absurd hx hxne

/-! ## Examples -/

/-- A ball of radius one, thrown at the floor, and one at rest: two balls, or a ball and a rod on a fixed body. -/
noncomputable def exThrownFig (rod : Bool) (i : Nat) : Figure ℝ := if i = 1 ∧ rod = true then .rod ⟨-9, -1⟩ ⟨9, -1⟩ (1/4) else .ball 1 ⟨0, 0⟩
noncomputable def exThrown (rod : Bool) : Scene ℝ :=
  ⟨fun i => ⟨(exThrownFig rod i).made realMth, i % 2, ⟨0#64, 1#64, 1#64⟩, ⟨1, 1/2, ⟨0, 0⟩⟩, false, BitVec.ofNat 64 i⟩, ⟨100000, 1/10, 1/2, 1, ⟨0, -10⟩, 2⟩, 1/1000, 3,
    fun _ _ => false⟩
noncomputable def exThrownBodies (rod : Bool) (k : Nat) : Body ℝ :=
  if k = 0 then { Body.blank with m := 2, mInv := 1/2, i := 1, iInv := 1, v := ⟨3, -4⟩ }
  else if rod then { Body.blank with m := 100000, i := 100000, idle := 100000 } else { Body.blank with m := 1, mInv := 1, i := 1, iInv := 1, p := ⟨0, -1⟩, tr := ⟨1, 0, 0, 1, 0, -1⟩ }

theorem exThrown_meet (rod : Bool) (shapes : Nat → CShape ℝ) (hs : ∀ i, (shapes i).bb.L ≤ (shapes i).bb.R ∧ (shapes i).bb.B ≤ (shapes i).bb.T) (t : Tick ℝ)
    (ht : t = ⟨1/60, if rod then [0] else [0, 1], if rod then [0] else [0, 1], fun _ _ => true, fun _ _ => true⟩) :
    Made realMth (exThrown rod) (exThrownFig rod) ∧ (∀ k, Rigid (exThrownBodies rod k).tr) ∧ WLegal (exThrown rod) (fun _ => none) (twoOps (!rod) ++ [.step t]) ∧
    ∃ w, (World.init (exThrownBodies rod) shapes).run realMth (exThrown rod) (twoOps (!rod)) = some w ∧ w.bodies = exThrownBodies rod ∧ w.cache = [] ∧ w.joints = [] ∧
      ∃ p, (w.step realMth (exThrown rod) t).active = [p] ∧ SameTwo p (0, 1) ∧ Undisturbed (exThrown rod) w (w.step realMth (exThrown rod) t) p.1 p.2 := by
  have hc : realMth.cos 0 = 1 ∧ realMth.sin 0 = 0 := ⟨Real.cos_zero, Real.sin_zero⟩
  have hm : Made realMth (exThrown rod) (exThrownFig rod) := by
    refine fun i => ⟨?_, rfl⟩
    unfold exThrownFig
    split
    · exact ⟨by norm_num, by norm_num [V2.mk.injEq]⟩
    · exact zero_le_one (α := ℝ)
  have hr : ∀ k, Rigid (exThrownBodies rod k).tr := by
    intro k
    unfold exThrownBodies
    split_ifs <;> norm_num [Rigid, Body.blank, Transform.identity]
  have one : (1#64 : BitVec 64).getLsbD 0 = true := by decide
  refine ⟨hm, hr, ?_⟩
  refine two_meet realMth_lawful hm (by norm_num [exThrown]) _ shapes hr hs (!rod) t (by rw [ht]; norm_num) (by rw [ht]; exact ⟨fun _ _ => rfl, fun _ _ => rfl⟩)
    (by rw [ht]; cases rod <;> rfl) (by rw [ht]; cases rod <;> simp [exThrown]) (by simp [exThrown])
    ⟨.inl rfl, ⟨0, by decide, one, one⟩, ⟨0, by decide, one, one⟩⟩ ⟨rfl, rfl⟩ (by norm_num [exThrown, exThrownBodies]) (by cases rod <;> exact ⟨trivial, trivial⟩) ?_
  rw [ht]
  cases rod
  · refine ⟨⟨0, 0⟩, ⟨0, 0⟩, rfl, rfl, ?_⟩
    have : dist2 (((SolverState.positions realMth [0, 1] (1/60) ⟨exThrownBodies false, [], []⟩).bodies 0).tr.apply ⟨0, 0⟩)
        (((SolverState.positions realMth [0, 1] (1/60) ⟨exThrownBodies false, [], []⟩).bodies 1).tr.apply ⟨0, 0⟩) < ((1 : ℝ) + 1) * (1 + 1) := by
      norm_num [SolverState.positions, exThrownBodies, Body.blank, Body.updatePosition, Body.setTransform, Body.mkTransform, Transform.transpose, Transform.apply, V2.add, V2.scale, V2.zero, hc, dist2]
    exact ⟨this.le, fun _ => this⟩
  · refine ⟨⟨0, 0⟩, At ⟨-9, -1⟩ ⟨9, -1⟩ (1/2), rfl, ⟨1/2, by norm_num, by norm_num, rfl⟩, ?_⟩
    have : dist2 (((SolverState.positions realMth [0] (1/60) ⟨exThrownBodies true, [], []⟩).bodies 0).tr.apply ⟨0, 0⟩)
        (((SolverState.positions realMth [0] (1/60) ⟨exThrownBodies true, [], []⟩).bodies 1).tr.apply (At ⟨-9, -1⟩ ⟨9, -1⟩ (1/2))) < ((1 : ℝ) + 1/4) * (1 + 1/4) := by
      norm_num [SolverState.positions, exThrownBodies, Body.blank, Body.updatePosition, Body.setTransform, Body.mkTransform, Transform.transpose, Transform.apply, V2.add, V2.scale, V2.zero, hc, dist2, At,
        Transform.identity]
    exact ⟨this.le, fun _ => this⟩

/-- The hypotheses of `C120_balls`: two balls in the air, one of which has been thrown at the other; the collision is new. -/
example (shapes : Nat → CShape ℝ) (hs : ∀ i, (shapes i).bb.L ≤ (shapes i).bb.R ∧ (shapes i).bb.B ≤ (shapes i).bb.T) (t : Tick ℝ)
    (ht : t = ⟨1/60, [0, 1], [0, 1], fun _ _ => true, fun _ _ => true⟩) :
    Made realMth (exThrown false) (exThrownFig false) ∧ (∀ k, Rigid (exThrownBodies false k).tr) ∧ WLegal (exThrown false) (fun _ => none) (twoOps true ++ [.step t]) ∧
    ∃ w, (World.init (exThrownBodies false) shapes).run realMth (exThrown false) (twoOps true) = some w ∧ ∃ i j, (i, j) ∈ (w.step realMth (exThrown false) t).active ∧
      rosterAfter (fun _ => none) (twoOps (K := ℝ) true) i ≠ none ∧ rosterAfter (fun _ => none) (twoOps (K := ℝ) true) j ≠ none ∧
      exThrownFig false i = .ball 1 (w.bodies ((exThrown false).figs i).body).cog ∧ exThrownFig false j = .ball 1 (w.bodies ((exThrown false).figs j).body).cog ∧
      Centred (w.bodies ((exThrown false).figs i).body) ∧ Centred (w.bodies ((exThrown false).figs j).body) ∧
      Movable (w.bodies ((exThrown false).figs i).body) (w.bodies ((exThrown false).figs j).body) ∧
      0 ≤ ((exThrown false).figs i).surface.friction * ((exThrown false).figs j).surface.friction ∧ Undisturbed (exThrown false) w (w.step realMth (exThrown false) t) i j ∧ Known w t.dt i j := by
  obtain ⟨h1, h2, h3, w, e, w1, w2, w3, ⟨i, j⟩, p1, p2, p3⟩ := exThrown_meet false shapes hs t (by rw [ht]; rfl)
  refine ⟨h1, h2, h3, w, e, i, j, by rw [p1]; exact List.mem_cons_self, ?_⟩
  rw [two_roster, two_roster, w1]
  rcases p2 with h | h <;> (obtain ⟨rfl, rfl⟩ := Prod.mk.inj h; refine ⟨by simp, by simp, ?_, ?_, ?_, ?_, ?_, ?_, p3, .inl (by rw [w2]; simp)⟩) <;>
    norm_num [exThrownFig, exThrown, exThrownBodies, Body.blank, V2.zero, Centred, Transform.apply, Transform.identity, Movable]

/-- The hypotheses of `C120_ground`: the ball is thrown at the floor. -/
example (shapes : Nat → CShape ℝ) (hs : ∀ i, (shapes i).bb.L ≤ (shapes i).bb.R ∧ (shapes i).bb.B ≤ (shapes i).bb.T) (t : Tick ℝ)
    (ht : t = ⟨1/60, [0], [0], fun _ _ => true, fun _ _ => true⟩) :
    Made realMth (exThrown true) (exThrownFig true) ∧ (∀ k, Rigid (exThrownBodies true k).tr) ∧ WLegal (exThrown true) (fun _ => none) (twoOps false ++ [.step t]) ∧
    ∃ w, (World.init (exThrownBodies true) shapes).run realMth (exThrown true) (twoOps false) = some w ∧
      ((0, 1) ∈ (w.step realMth (exThrown true) t).active ∨ (1, 0) ∈ (w.step realMth (exThrown true) t).active) ∧
      rosterAfter (fun _ => none) (twoOps (K := ℝ) false) 0 ≠ none ∧ rosterAfter (fun _ => none) (twoOps (K := ℝ) false) 1 ≠ none ∧
      exThrownFig true 0 = .ball 1 (w.bodies ((exThrown true).figs 0).body).cog ∧ exThrownFig true 1 = .rod ⟨-9, -1⟩ ⟨9, -1⟩ (1/4) ∧
      Centred (w.bodies ((exThrown true).figs 0).body) ∧ (w.bodies ((exThrown true).figs 1).body).iInv = 0 ∧
      Movable (w.bodies ((exThrown true).figs 0).body) (w.bodies ((exThrown true).figs 1).body) ∧
      0 ≤ ((exThrown true).figs 0).surface.friction * ((exThrown true).figs 1).surface.friction ∧ Undisturbed (exThrown true) w (w.step realMth (exThrown true) t) 0 1 ∧ Known w t.dt 0 1 := by
  obtain ⟨h1, h2, h3, w, e, w1, w2, w3, p, p1, p2, p3⟩ := exThrown_meet true shapes hs t (by rw [ht]; rfl)
  obtain ⟨hl1, hl2, -⟩ := (legal_append _ _ _ _).1 h3
  obtain ⟨w', e', hu, hf⟩ := run_filed realMth_lawful h1 (by norm_num [exThrown]) _ _ _ (init_upright (exThrown true) (exThrownBodies true) shapes h2 hs) ⟨List.Pairwise.nil, List.Pairwise.nil, (fun p hp => by cases hp)⟩ hl1
  obtain rfl : w = w' := Option.some.inj (e.symm.trans e')
  have r0 : rosterAfter (fun _ => none) (twoOps (K := ℝ) (!true)) 0 ≠ none := by rw [two_roster]; simp
  have r1 : rosterAfter (fun _ => none) (twoOps (K := ℝ) (!true)) 1 ≠ none := by rw [two_roster]; simp
  have f0 : exThrownFig true 0 = .ball 1 ⟨0, 0⟩ := by simp [exThrownFig]
  have f1 : exThrownFig true 1 = .rod ⟨-9, -1⟩ ⟨9, -1⟩ (1/4) := by simp [exThrownFig]
  have hp : p = (0, 1) := by
    refine p2.resolve_right fun h => ?_
    exact ball_first realMth_lawful h1 (by norm_num [exThrown]) hu hf hl2 (by rw [ht]; norm_num) r0 r1 f0 f1 (by rw [p1, h]; exact List.mem_cons_self)
  subst hp
  refine ⟨h1, h2, h3, w, e, .inl (by rw [p1]; exact List.mem_cons_self), r0, r1, ?_, f1, ?_, ?_, ?_, ?_, p3, .inl (by rw [w2]; simp)⟩ <;> (try rw [w1]) <;>
    norm_num [exThrownFig, exThrown, exThrownBodies, Body.blank, V2.zero, Centred, Transform.apply, Transform.identity, Movable]

end Cm
