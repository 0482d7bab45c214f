import Verif.Model.Solver
import Verif.Spec.Motion
import Verif.Props.Body
import Verif.Proofs.Nudge
/-! # C34, C35, C36: the contact solver -/
set_option linter.unusedSectionVars false
set_option linter.unusedSimpArgs false

namespace Cm
open Spec
variable {K : Type} [Field K] [LinearOrder K] [IsStrictOrderedRing K]

namespace Spec
theorem Exchange.refl (a b : Body K) : Exchange a b a b :=
  ⟨.refl a, .refl b, fun _ _ => ⟨rfl, rfl⟩, fun _ _ => ⟨rfl, rfl⟩, fun _ => rfl, fun _ => rfl⟩

theorem Exchange.trans {a b a' b' a'' b'' : Body K} (h : Exchange a b a' b') (h' : Exchange a' b' a'' b'') :
    Exchange a b a'' b'' := by
  refine ⟨h.sameA.trans h'.sameA, h.sameB.trans h'.sameB, ?_, ?_, ?_, ?_⟩
  · intro ha hb
    have e := h.lin ha hb
    have e' := h'.lin (h.sameA.finiteMass.1 ha) (h.sameB.finiteMass.1 hb)
    exact ⟨e'.1.trans e.1, e'.2.trans e.2⟩
  · intro ha hb
    have e := h.bias ha hb
    have e' := h'.bias (h.sameA.finiteMass.1 ha) (h.sameB.finiteMass.1 hb)
    exact ⟨e'.1.trans e.1, e'.2.trans e.2⟩
  · intro ha
    rw [h'.fixA (h.sameA.immovable.1 ha), h.fixA ha]
  · intro hb
    rw [h'.fixB (h.sameB.immovable.1 hb), h.fixB hb]
end Spec

theorem applyImpulses_exchange (a b : Body K) (r1 r2 j : V2 K) :
    Exchange a b (applyImpulses a b r1 r2 j).1 (applyImpulses a b r1 r2 j).2 := by
  refine ⟨rfl, rfl, ?_, fun _ _ => ⟨rfl, rfl⟩, ?_, ?_⟩
  · intro ha hb
    simp only [FiniteMass] at ha hb
    simp only [applyImpulses, linMom]
    constructor
    · linear_combination j.x * hb - j.x * ha
    · linear_combination j.y * hb - j.y * ha
  · intro h
    obtain ⟨m, mi, i, ii, _⟩ := a
    obtain ⟨rfl, rfl⟩ : mi = 0 ∧ ii = 0 := h
    simp [applyImpulses]
  · intro h
    obtain ⟨m, mi, i, ii, _⟩ := b
    obtain ⟨rfl, rfl⟩ : mi = 0 ∧ ii = 0 := h
    simp [applyImpulses]

theorem applyBiasImpulses_exchange (a b : Body K) (r1 r2 j : V2 K) :
    Exchange a b (applyBiasImpulses a b r1 r2 j).1 (applyBiasImpulses a b r1 r2 j).2 := by
  refine ⟨rfl, rfl, fun _ _ => ⟨rfl, rfl⟩, ?_, ?_, ?_⟩
  · intro ha hb
    simp only [FiniteMass] at ha hb
    simp only [applyBiasImpulses, biasMom]
    constructor
    · linear_combination j.x * hb - j.x * ha
    · linear_combination j.y * hb - j.y * ha
  · intro h
    obtain ⟨m, mi, i, ii, _⟩ := a
    obtain ⟨rfl, rfl⟩ : mi = 0 ∧ ii = 0 := h
    simp [applyBiasImpulses]
  · intro h
    obtain ⟨m, mi, i, ii, _⟩ := b
    obtain ⟨rfl, rfl⟩ : mi = 0 ∧ ii = 0 := h
    simp [applyBiasImpulses]

/-- The change of angular momentum is the cross product of the offset between the two points with the
impulse. -/
theorem applyImpulses_angMom (a b : Body K) (r1 r2 j : V2 K) (ha : FiniteMass a) (hb : FiniteMass b)
    (ha' : FiniteMoment a) (hb' : FiniteMoment b) :
    angMom (applyImpulses a b r1 r2 j).1 + angMom (applyImpulses a b r1 r2 j).2
      = angMom a + angMom b + (((b.p.add r2).sub (a.p.add r1)).cross j) := by
  simp only [FiniteMass, FiniteMoment] at *
  simp only [applyImpulses, angMom, V2.add, V2.sub, V2.cross]
  linear_combination (b.p.x * j.y - b.p.y * j.x) * hb - (a.p.x * j.y - a.p.y * j.x) * ha
    + (r2.x * j.y - r2.y * j.x) * hb' - (r1.x * j.y - r1.y * j.x) * ha'

theorem applyBiasImpulses_angMom (a b : Body K) (r1 r2 j : V2 K) :
    angMom (applyBiasImpulses a b r1 r2 j).1 = angMom a ∧
    angMom (applyBiasImpulses a b r1 r2 j).2 = angMom b := ⟨rfl, rfl⟩

/-! ## C34 -/

theorem contactStep_exchange (n sv : V2 K) (u : K) (a b : Body K) (c : Contact K) :
    Exchange a b (Arbiter.contactStep n sv u a b c).1 (Arbiter.contactStep n sv u a b c).2.1 := by
  unfold Arbiter.contactStep
  exact (applyBiasImpulses_exchange _ _ _ _ _).trans (applyImpulses_exchange _ _ _ _ _)

theorem impulseLoop_exchange (n sv : V2 K) (u : K) (cs : List (Contact K)) : ∀ a b : Body K,
    Exchange a b (Arbiter.impulseLoop n sv u cs a b).1 (Arbiter.impulseLoop n sv u cs a b).2.1 := by
  induction cs with
  | nil => intro a b; exact Exchange.refl a b
  | cons c cs ih =>
    intro a b
    exact (contactStep_exchange n sv u a b c).trans (ih _ _)

theorem cachedLoop_exchange (n : V2 K) (t : K) (cs : List (Contact K)) : ∀ a b : Body K,
    Exchange a b (Arbiter.cachedLoop n t cs a b).1 (Arbiter.cachedLoop n t cs a b).2 := by
  induction cs with
  | nil => intro a b; exact Exchange.refl a b
  | cons c cs ih =>
    intro a b
    exact (applyImpulses_exchange _ _ _ _ _).trans (ih _ _)

/-- Warm start followed by `n` iterations on one arbiter. -/
def Spec.solveContact (arb : Arbiter K) (dtCoef : K) : Nat → Body K → Body K → Body K × Body K × Arbiter K
  | 0, a, b => ((arb.applyCachedImpulse a b dtCoef).1, (arb.applyCachedImpulse a b dtCoef).2, arb)
  | n + 1, a, b =>
    let t := solveContact arb dtCoef n a b
    t.2.2.applyImpulse t.1 t.2.1

/-- **C34** Warm start and any number of iterations conserve linear momentum, alter only velocities, and do
not touch immovable bodies. -/
theorem C34_linear (arb : Arbiter K) (dtCoef : K) (n : Nat) (a b : Body K) :
    Exchange a b (solveContact arb dtCoef n a b).1 (solveContact arb dtCoef n a b).2.1 := by
  induction n with
  | zero =>
    simp only [solveContact, Arbiter.applyCachedImpulse]
    split
    · exact Exchange.refl a b
    · exact cachedLoop_exchange _ _ _ _ _
  | succ n ih => exact ih.trans (impulseLoop_exchange _ _ _ _ _ _)

theorem contactStep_angMom (n sv : V2 K) (u : K) (a b : Body K) (c : Contact K)
    (ha : FiniteMass a) (hb : FiniteMass b) (ha' : FiniteMoment a) (hb' : FiniteMoment b)
    (hc : a.p.add c.r1 = b.p.add c.r2) :
    angMom (Arbiter.contactStep n sv u a b c).1 + angMom (Arbiter.contactStep n sv u a b c).2.1
      = angMom a + angMom b := by
  unfold Arbiter.contactStep
  refine (applyImpulses_angMom _ _ _ _ _ ?_ ?_ ?_ ?_).trans ?_
  · exact ha
  · exact hb
  · exact ha'
  · exact hb'
  have e1 := V2.ext_iff.1 hc
  simp only [V2.add] at e1
  simp only [applyBiasImpulses, V2.add, V2.sub, V2.cross, angMom]
  rw [← e1.1, ← e1.2]
  ring

theorem impulseLoop_angMom (n sv : V2 K) (u : K) (cs : List (Contact K)) : ∀ a b : Body K,
    FiniteMass a → FiniteMass b → FiniteMoment a → FiniteMoment b →
    (∀ c ∈ cs, a.p.add c.r1 = b.p.add c.r2) →
    angMom (Arbiter.impulseLoop n sv u cs a b).1 + angMom (Arbiter.impulseLoop n sv u cs a b).2.1
      = angMom a + angMom b := by
  induction cs with
  | nil => intros; rfl
  | cons c cs ih =>
    intro a b ha hb ha' hb' hc
    have ex := contactStep_exchange n sv u a b c
    have := ih _ _ (ex.sameA.finiteMass.1 ha) (ex.sameB.finiteMass.1 hb) (ex.sameA.finiteMoment.1 ha')
      (ex.sameB.finiteMoment.1 hb') (fun d hd => by
        rw [ex.sameA.masses.2.2.2.2.1, ex.sameB.masses.2.2.2.2.1]; exact hc d (by simp [hd]))
    simp only [Arbiter.impulseLoop]
    rw [this]
    exact contactStep_angMom n sv u a b c ha hb ha' hb' (hc c (by simp))

theorem cachedLoop_angMom (n : V2 K) (t : K) (cs : List (Contact K)) : ∀ a b : Body K,
    FiniteMass a → FiniteMass b → FiniteMoment a → FiniteMoment b →
    (∀ c ∈ cs, a.p.add c.r1 = b.p.add c.r2) →
    angMom (Arbiter.cachedLoop n t cs a b).1 + angMom (Arbiter.cachedLoop n t cs a b).2
      = angMom a + angMom b := by
  induction cs with
  | nil => intros; rfl
  | cons c cs ih =>
    intro a b ha hb ha' hb' hc
    have ex := applyImpulses_exchange a b c.r1 c.r2 ((n.rotate ⟨c.jnAcc, c.jtAcc⟩).scale t)
    have := ih _ _ (ex.sameA.finiteMass.1 ha) (ex.sameB.finiteMass.1 hb) (ex.sameA.finiteMoment.1 ha')
      (ex.sameB.finiteMoment.1 hb') (fun d hd => by
        rw [ex.sameA.masses.2.2.2.2.1, ex.sameB.masses.2.2.2.2.1]; exact hc d (by simp [hd]))
    simp only [Arbiter.cachedLoop]
    rw [this, applyImpulses_angMom _ _ _ _ _ ha hb ha' hb']
    have e1 := V2.ext_iff.1 (hc c (by simp))
    simp only [V2.add] at e1
    simp only [V2.add, V2.sub, V2.cross]
    rw [← e1.1, ← e1.2]
    ring

theorem impulseLoop_points (n sv : V2 K) (u : K) (cs : List (Contact K)) : ∀ a b : Body K,
    (Arbiter.impulseLoop n sv u cs a b).2.2.map (fun c => (c.r1, c.r2)) = cs.map (fun c => (c.r1, c.r2)) := by
  induction cs with
  | nil => intros; rfl
  | cons c cs ih =>
    intro a b
    simp only [Arbiter.impulseLoop, List.map_cons, ih]
    rfl

/-- Where the contact points on the two bodies coincide, angular momentum is conserved too. -/
theorem C34_angular (arb : Arbiter K) (dtCoef : K) (n : Nat) (a b : Body K)
    (ha : FiniteMass a) (hb : FiniteMass b) (ha' : FiniteMoment a) (hb' : FiniteMoment b)
    (hc : ∀ c ∈ arb.contacts, a.p.add c.r1 = b.p.add c.r2) :
    angMom (solveContact arb dtCoef n a b).1 + angMom (solveContact arb dtCoef n a b).2.1
      = angMom a + angMom b := by
  suffices H : angMom (solveContact arb dtCoef n a b).1 + angMom (solveContact arb dtCoef n a b).2.1
      = angMom a + angMom b ∧
      (solveContact arb dtCoef n a b).2.2.contacts.map (fun c => (c.r1, c.r2))
        = arb.contacts.map (fun c => (c.r1, c.r2)) from H.1
  induction n with
  | zero =>
    refine ⟨?_, rfl⟩
    simp only [solveContact, Arbiter.applyCachedImpulse]
    split
    · rfl
    · exact cachedLoop_angMom _ _ _ _ _ ha hb ha' hb' hc
  | succ n ih =>
    have ex := C34_linear arb dtCoef n a b
    refine ⟨?_, ?_⟩
    · simp only [solveContact, Arbiter.applyImpulse]
      rw [impulseLoop_angMom _ _ _ _ _ _ (ex.sameA.finiteMass.1 ha) (ex.sameB.finiteMass.1 hb)
        (ex.sameA.finiteMoment.1 ha') (ex.sameB.finiteMoment.1 hb') ?_, ih.1]
      intro c hcm
      rw [ex.sameA.masses.2.2.2.2.1, ex.sameB.masses.2.2.2.2.1]
      have : (c.r1, c.r2) ∈ (solveContact arb dtCoef n a b).2.2.contacts.map (fun c => (c.r1, c.r2)) :=
        List.mem_map.2 ⟨c, hcm, rfl⟩
      rw [ih.2] at this
      obtain ⟨d, hd, e⟩ := List.mem_map.1 this
      simp only [Prod.mk.injEq] at e
      rw [← e.1, ← e.2]
      exact hc d hd
    · simp only [solveContact, Arbiter.applyImpulse]
      rw [impulseLoop_points, ih.2]

/-! ## C35 -/

/-- Only pushing, and friction within the cone. -/
def Spec.InCone (u : K) (c : Contact K) : Prop := 0 ≤ c.jnAcc ∧ 0 ≤ c.jBias ∧ |c.jtAcc| ≤ u * c.jnAcc

theorem contactStep_cone (n sv : V2 K) (u : K) (hu : 0 ≤ u) (a b : Body K) (c : Contact K) :
    InCone u (Arbiter.contactStep n sv u a b c).2.2 := by
  simp only [Arbiter.contactStep, InCone]
  refine ⟨le_max_right _ _, le_max_right _ _, ?_⟩
  generalize -((c.bounce + ((relativeVelocity a b c.r1 c.r2).add sv).dot n)) * c.nMass = x
  have h0 : (0:K) ≤ u * max (c.jnAcc + x) 0 := mul_nonneg hu (le_max_right _ _)
  have hle : -(u * max (c.jnAcc + x) 0) ≤ u * max (c.jnAcc + x) 0 := by linarith
  rw [clamp_eq _ _ _ hle, abs_le]
  exact ⟨le_max_left _ _, max_le hle (min_le_right _ _)⟩

theorem impulseLoop_cone (n sv : V2 K) (u : K) (hu : 0 ≤ u) (cs : List (Contact K)) : ∀ a b : Body K,
    ∀ c ∈ (Arbiter.impulseLoop n sv u cs a b).2.2, InCone u c := by
  induction cs with
  | nil => intro a b c hc; simp [Arbiter.impulseLoop] at hc
  | cons c cs ih =>
    intro a b d hd
    simp only [Arbiter.impulseLoop, List.mem_cons] at hd
    rcases hd with rfl | hd
    · exact contactStep_cone n sv u hu a b c
    · exact ih _ _ d hd

/-- **C35** After one or more iterations, from any state whatever (whatever the cached impulses and whatever
other constraints did to the bodies in between), every contact only pushes and friction is in the cone. -/
theorem C35_cone (arb : Arbiter K) (hu : 0 ≤ arb.u) (a b : Body K) :
    ∀ c ∈ (arb.applyImpulse a b).2.2.contacts, InCone arb.u c :=
  impulseLoop_cone _ _ _ hu _ _ _

/-- It also holds after `PreStep` and any number of iterations, zero included, if it held for the cached
impulses; `bodies` are what the rest of the space makes of the bodies before each iteration. -/
def Spec.iterateArb (arb : Arbiter K) (bodies : Nat → Body K × Body K) : Nat → Arbiter K
  | 0 => arb
  | n + 1 => ((iterateArb arb bodies n).applyImpulse (bodies n).1 (bodies n).2).2.2

theorem iterateArb_u (arb : Arbiter K) (bodies : Nat → Body K × Body K) (n : Nat) :
    (iterateArb arb bodies n).u = arb.u := by
  induction n with
  | zero => rfl
  | succ n ih => exact ih

theorem C35_cone_kept (arb : Arbiter K) (hu : 0 ≤ arb.u) (a b : Body K) (dt slop bias : K)
    (bodies : Nat → Body K × Body K) (n : Nat)
    (h : ∀ c ∈ arb.contacts, 0 ≤ c.jnAcc ∧ |c.jtAcc| ≤ arb.u * c.jnAcc) :
    ∀ c ∈ (iterateArb (arb.preStep a b dt slop bias) bodies n).contacts, InCone arb.u c := by
  cases n with
  | zero =>
    intro c hc
    simp only [iterateArb, Arbiter.preStep, List.mem_map] at hc
    obtain ⟨d, hd, rfl⟩ := hc
    have := h d hd
    exact ⟨this.1, le_rfl, this.2⟩
  | succ n =>
    have e := iterateArb_u (arb.preStep a b dt slop bias) bodies n
    have e2 : (arb.preStep a b dt slop bias).u = arb.u := rfl
    have := C35_cone (iterateArb (arb.preStep a b dt slop bias) bodies n) (by rw [e, e2]; exact hu)
      (bodies n).1 (bodies n).2
    rw [e, e2] at this
    exact this

/-! ## C36 -/

/-- Velocity of the contact point of `b` relative to that of `a`, along `n`. -/
def Spec.approach (a b : Body K) (r1 r2 n : V2 K) : K :=
  ((pointVel b r2).x - (pointVel a r1).x) * n.x + ((pointVel b r2).y - (pointVel a r1).y) * n.y

/-- How much a tangential impulse turns into normal velocity through rotation. -/
def Spec.coupling (a b : Body K) (r1 r2 n : V2 K) : K :=
  a.iInv * (r1.cross n * r1.dot n) + b.iInv * (r2.cross n * r2.dot n)

theorem normalRelativeVelocity_eq (a b : Body K) (r1 r2 n : V2 K) :
    normalRelativeVelocity a b r1 r2 n = approach a b r1 r2 n := by
  simp only [normalRelativeVelocity, relativeVelocity, V2.dot, V2.sub, V2.add, V2.scale, V2.perp, approach, pointVel]
  ring

theorem approach_after (a b : Body K) (r1 r2 n : V2 K) (hn : n.x ^ 2 + n.y ^ 2 = 1) (jn jt : K) :
    approach (applyImpulses a b r1 r2 (n.rotate ⟨jn, jt⟩)).1 (applyImpulses a b r1 r2 (n.rotate ⟨jn, jt⟩)).2 r1 r2 n
      = approach a b r1 r2 n + jn * kScalar a b r1 r2 n + jt * coupling a b r1 r2 n := by
  simp only [approach, pointVel, applyImpulses, V2.rotate, kScalar, kScalarBody, V2.cross, coupling, V2.dot]
  linear_combination jn * (a.mInv + b.mInv) * hn

/-- The normal velocity after one iteration on a contact, exactly: the increments of the accumulated impulses
act through the effective mass and the coupling. -/
theorem C36_exact (n sv : V2 K) (u : K) (a b : Body K) (c : Contact K) (hn : n.x ^ 2 + n.y ^ 2 = 1) :
    let s := Arbiter.contactStep n sv u a b c
    approach s.1 s.2.1 c.r1 c.r2 n = approach a b c.r1 c.r2 n
      + (s.2.2.jnAcc - c.jnAcc) * kScalar a b c.r1 c.r2 n
      + (s.2.2.jtAcc - c.jtAcc) * coupling a b c.r1 c.r2 n := by
  simp only [Arbiter.contactStep]
  rw [approach_after _ _ _ _ _ hn]
  rfl

/-- **C36** (partial: without the friction coupling). For a contact prepared by `PreStep`, if the friction
increment does not act along the normal, then: when the accumulated impulse stays positive the relative normal
velocity becomes minus the stored bounce velocity, and when the clamp acts the accumulated impulse is zero and
the bodies separate at least that fast.

The full statement drops `hfric`; it is false, see `C36_friction_disturbs`. -/
theorem C36_target_partial (n sv : V2 K) (u : K) (a b : Body K) (c : Contact K)
    (hn : n.x ^ 2 + n.y ^ 2 = 1) (hsv : sv.dot n = 0)
    (hk : 0 < kScalar a b c.r1 c.r2 n) (hnm : c.nMass = 1 / kScalar a b c.r1 c.r2 n) :
    let s := Arbiter.contactStep n sv u a b c
    (s.2.2.jtAcc - c.jtAcc) * coupling a b c.r1 c.r2 n = 0 →
    (0 < s.2.2.jnAcc → approach s.1 s.2.1 c.r1 c.r2 n = -c.bounce) ∧
    (s.2.2.jnAcc = 0 → -c.bounce ≤ approach s.1 s.2.1 c.r1 c.r2 n) := by
  intro s hfric
  have ex := C36_exact n sv u a b c hn
  simp only at ex
  have hs : s = Arbiter.contactStep n sv u a b c := rfl
  rw [← hs] at ex
  rw [hfric, add_zero] at ex
  have hj : s.2.2.jnAcc = max (c.jnAcc + -(c.bounce + approach a b c.r1 c.r2 n) * c.nMass) 0 := by
    have e : ((relativeVelocity a b c.r1 c.r2).add sv).dot n = approach a b c.r1 c.r2 n := by
      rw [← normalRelativeVelocity_eq]
      simp only [normalRelativeVelocity, V2.dot, V2.add] at hsv ⊢
      linear_combination hsv
    rw [← e]
    rfl
  have hkk : c.nMass * kScalar a b c.r1 c.r2 n = 1 := by rw [hnm]; field_simp
  constructor
  · intro hpos
    have e : s.2.2.jnAcc = c.jnAcc + -(c.bounce + approach a b c.r1 c.r2 n) * c.nMass := by
      rcases max_choice (c.jnAcc + -(c.bounce + approach a b c.r1 c.r2 n) * c.nMass) 0 with h | h
      · rw [hj, h]
      · rw [hj, h] at hpos; exact absurd hpos (lt_irrefl _)
    rw [ex, e]
    linear_combination (-(c.bounce + approach a b c.r1 c.r2 n)) * hkk
  · intro h0
    have hle : c.jnAcc + -(c.bounce + approach a b c.r1 c.r2 n) * c.nMass ≤ 0 := by
      have := le_max_left (c.jnAcc + -(c.bounce + approach a b c.r1 c.r2 n) * c.nMass) 0
      rw [← hj, h0] at this; exact this
    rw [ex, h0]
    have h2 := mul_le_mul_of_nonneg_right hle (le_of_lt hk)
    rw [zero_mul] at h2
    have h3 : (c.jnAcc + -(c.bounce + approach a b c.r1 c.r2 n) * c.nMass) * kScalar a b c.r1 c.r2 n
        = c.jnAcc * kScalar a b c.r1 c.r2 n - (c.bounce + approach a b c.r1 c.r2 n) := by
      linear_combination (-(c.bounce + approach a b c.r1 c.r2 n)) * hkk
    rw [h3] at h2
    linarith

/-- Without friction `hfric` holds. -/
theorem C36_frictionless (n sv : V2 K) (a b : Body K) (c : Contact K)
    (hn : n.x ^ 2 + n.y ^ 2 = 1) (hsv : sv.dot n = 0)
    (hk : 0 < kScalar a b c.r1 c.r2 n) (hnm : c.nMass = 1 / kScalar a b c.r1 c.r2 n) (ht : c.jtAcc = 0) :
    let s := Arbiter.contactStep n sv 0 a b c
    (0 < s.2.2.jnAcc → approach s.1 s.2.1 c.r1 c.r2 n = -c.bounce) ∧
    (s.2.2.jnAcc = 0 → -c.bounce ≤ approach s.1 s.2.1 c.r1 c.r2 n) := by
  refine C36_target_partial n sv 0 a b c hn hsv hk hnm ?_
  have : (Arbiter.contactStep n sv 0 a b c).2.2.jtAcc = 0 := by
    simp only [Arbiter.contactStep, zero_mul, neg_zero]
    rw [clamp_eq _ _ _ le_rfl]
    exact le_antisymm (max_le le_rfl (min_le_right _ _)) (le_max_left _ _)
  rw [this, ht]; ring

/-- Nor is friction an obstacle where the normal passes through both centres of gravity, as between discs. -/
theorem C36_central (n sv : V2 K) (u : K) (a b : Body K) (c : Contact K)
    (hn : n.x ^ 2 + n.y ^ 2 = 1) (hsv : sv.dot n = 0)
    (hk : 0 < kScalar a b c.r1 c.r2 n) (hnm : c.nMass = 1 / kScalar a b c.r1 c.r2 n)
    (h1 : c.r1.cross n = 0) (h2 : c.r2.cross n = 0) :
    let s := Arbiter.contactStep n sv u a b c
    (0 < s.2.2.jnAcc → approach s.1 s.2.1 c.r1 c.r2 n = -c.bounce) ∧
    (s.2.2.jnAcc = 0 → -c.bounce ≤ approach s.1 s.2.1 c.r1 c.r2 n) := by
  refine C36_target_partial n sv u a b c hn hsv hk hnm ?_
  simp [coupling, h1, h2]

/-- A block with a contact off its centre, sliding on a static floor. -/
def exFloor : Body ℚ := { (Body.blank : Body ℚ) with m := 0, i := 0 }
def exBlock : Body ℚ := { (Body.blank : Body ℚ) with m := 1, mInv := 1, i := 1, iInv := 1, v := ⟨1, -1⟩, p := ⟨0, 1⟩ }
def exContact : Contact ℚ :=
  { r1 := ⟨1, 0⟩, r2 := ⟨1, -1⟩, nMass := 1/2, tMass := 1/2, bounce := 0, jnAcc := 0, jtAcc := 0, jBias := 0,
    bias := 0, hash := 1 }

/-- With friction the target is missed even though the clamp on the normal impulse does not act: a rigid block
landing on its corner leaves the iteration still moving into the floor. -/
theorem C36_friction_disturbs :
    let s := Arbiter.contactStep (⟨0, 1⟩ : V2 ℚ) ⟨0, 0⟩ 1 exFloor exBlock exContact
    exContact.nMass = 1 / kScalar exFloor exBlock exContact.r1 exContact.r2 ⟨0, 1⟩ ∧
    exContact.tMass = 1 / kScalar exFloor exBlock exContact.r1 exContact.r2 (⟨0, 1⟩ : V2 ℚ).perp ∧
    0 < s.2.2.jnAcc ∧ approach s.1 s.2.1 exContact.r1 exContact.r2 ⟨0, 1⟩ ≠ -exContact.bounce := by
  refine ⟨?_, ?_, ?_, ?_⟩ <;> decide +kernel

/-- The hypotheses of `C36_frictionless` at the same block, with a positive impulse. -/
example : ((0:ℚ) ^ 2 + 1 ^ 2 = 1) ∧ (⟨0, 0⟩ : V2 ℚ).dot ⟨0, 1⟩ = 0 ∧
    0 < kScalar exFloor exBlock exContact.r1 exContact.r2 ⟨0, 1⟩ ∧
    0 < (Arbiter.contactStep (⟨0, 1⟩ : V2 ℚ) ⟨0, 0⟩ 0 exFloor exBlock exContact).2.2.jnAcc := by
  refine ⟨by norm_num, ?_, ?_, ?_⟩ <;> decide +kernel

/-- A body with a contact for the examples of C34 and C35: two finite bodies touching at a common point. -/
def exBall : Body ℚ := { (Body.blank : Body ℚ) with m := 2, mInv := 1/2, i := 1, iInv := 1, p := ⟨2, 0⟩ }
def exArb : Arbiter ℚ :=
  { e := 0, u := 1/2, surfaceVr := ⟨0, 0⟩, normal := ⟨1, 0⟩,
    contacts := [{ exContact with r1 := ⟨1, -1⟩, r2 := ⟨-1, 0⟩, nMass := 1, tMass := 1, jnAcc := 1 }],
    state := .normal, swapped := false }

example : FiniteMass exBlock ∧ FiniteMass exBall ∧ FiniteMoment exBlock ∧ FiniteMoment exBall ∧
    (∀ c ∈ exArb.contacts, exBlock.p.add c.r1 = exBall.p.add c.r2) ∧ 0 ≤ exArb.u ∧
    (solveContact exArb 1 2 exBlock exBall).1 ≠ exBlock := by
  refine ⟨?_, ?_, ?_, ?_, ?_, ?_, ?_⟩ <;> (try unfold FiniteMass) <;> (try unfold FiniteMoment) <;> decide +kernel

example : Immovable exFloor ∧ (solveContact exArb 1 2 exFloor exBall).2.1 ≠ exBall := by
  refine ⟨⟨?_, ?_⟩, ?_⟩ <;> decide +kernel

end Cm
